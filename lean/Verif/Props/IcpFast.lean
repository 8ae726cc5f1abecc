import Verif.Proofs.Outcome
import Verif.Proofs.AverageF
import Verif.Proofs.IcpFast
import Verif.Model.Registrator
/-!
C42: outlier rejection.
English: the distance limit used to reject matches is a finite match distance such that at least the
requested share of matches have a distance at most the limit; every match within the limit is used
and none above it; the number of points entering the solver equals the number of accepted matches.

C43: iteration limit.
English: alignment performs at least one and at most max(1, configured maximum) iterations, stops
earlier exactly when the convergence test holds, and the convergence test can only hold after at
least four iterations.

C44: clouds used.
English: after setting the source (target) cloud, the next alignment uses that cloud or is refused;
it never silently uses an older cloud.
-/
namespace Verif

/-- At least one finite match, a share in [0,1], one match per source point, neighbour indices
within the target: the pairs are selected without any check failing, as stated. -/
theorem C42_selection {P Q : Type} {ratio : Rat} (h0 : 0 ≤ ratio) (h1 : ratio ≤ 1) {src : List P}
    {tgt : List Q} {ms : List IcpMatch} (hl : ms.length = src.length)
    (hid : ∀ m ∈ ms, m.dist ≠ none → m.id < tgt.length) (hfin : ∃ m ∈ ms, m.dist ≠ none) :
    ∃ limit pairs, icpSelect ratio src tgt ms = .ok (limit, pairs) ∧
      -- a finite match distance
      (∃ m ∈ ms, m.dist = some limit) ∧
      -- at least the requested share is within it, at most that share strictly below it
      ratio * (ms.filterMap IcpMatch.dist).length ≤
        ((ms.filterMap IcpMatch.dist).countP fun d => decide (d ≤ limit) : Nat) ∧
      (((ms.filterMap IcpMatch.dist).countP fun d => decide (d < limit) : Nat) : Rat) ≤
        ratio * (ms.filterMap IcpMatch.dist).length ∧
      -- exactly the points whose match is within it enter the solver, in order, with the target
      -- point they were matched to
      pairs.map (fun x => (x.1, some x.2)) =
        ((src.zip ms).filter fun x => match x.2.dist with
          | some d => decide (d ≤ limit)
          | none => false).map (fun x => (x.1, tgt[x.2.id]?)) ∧
      pairs.length = (ms.filterMap IcpMatch.dist).countP (fun d => decide (d ≤ limit)) ∧
      0 < pairs.length := by
  have hne : ms.filterMap IcpMatch.dist ≠ [] := by
    obtain ⟨m, hm, hd⟩ := hfin
    cases hmd : m.dist with
    | none => exact absurd hmd hd
    | some d =>
      intro hc
      have : d ∈ ms.filterMap IcpMatch.dist := List.mem_filterMap.mpr ⟨m, hm, hmd⟩
      rw [hc] at this
      cases this
  obtain ⟨v, e1, e2, e3, e4⟩ := distQuantile_ok h0 h1 hne
  have hcount := weights_count v ms
  have hpos : 0 < (icpWeights v ms).countP id := by
    rw [hcount, List.countP_pos_iff]
    exact ⟨v, e2, by simp⟩
  have hacc := acceptedPairs_length (P := P) v hl
  have hfetch := icpFetch_ok tgt (l := acceptedPairs v src ms) (by
    intro x hx
    unfold acceptedPairs at hx
    rw [List.mem_filter] at hx
    obtain ⟨hz, hd⟩ := hx
    have hm : x.2 ∈ ms := (List.of_mem_zip (a := x.1) (b := x.2) hz).2
    apply hid _ hm
    intro hn
    rw [hn] at hd
    cases hd)
  obtain ⟨r, f1, f2, f3⟩ := hfetch
  refine ⟨v, r, ?_, ?_, e3, e4, ?_, ?_, ?_⟩
  · unfold icpSelect errorElements
    rw [e1]
    simp only [Outcome.bind_ok]
    rw [Outcome.check_pos (by simp [icpWeights, hl])]
    simp only [Outcome.bind_ok]
    rw [Outcome.check_pos (by
      obtain ⟨m, hm, _⟩ := hfin
      exact List.length_pos_of_mem hm)]
    simp only [Outcome.bind_ok]
    rw [Outcome.check_pos hl]
    simp only [Outcome.bind_ok]
    rw [Outcome.check_pos hpos]
    simp only [Outcome.bind_ok]
    rw [icpKept_eq, Outcome.check_pos hacc]
    simp only [Outcome.bind_ok, f1, Outcome.pure_eq]
  · rw [List.mem_filterMap] at e2
    exact e2
  · have hz : ∀ (a : List (P × Q)) (b : List (P × IcpMatch)), a.map Prod.fst = b.map Prod.fst →
        a.map (fun x => some x.2) = b.map (fun x => tgt[x.2.id]?) →
        a.map (fun x => (x.1, some x.2)) = b.map (fun x => (x.1, tgt[x.2.id]?)) := by
      intro a
      induction a with
      | nil => intro b h1 h2; cases b with
        | nil => rfl
        | cons y b => cases h1
      | cons x a ih => intro b h1 h2; cases b with
        | nil => cases h1
        | cons y b =>
          simp only [List.map_cons, List.cons.injEq] at h1 h2 ⊢
          exact ⟨by rw [h1.1, h2.1], ih b h1.2 h2.2⟩
    exact hz r _ f2 f3
  · have : r.length = (acceptedPairs v src ms).length := by
      have := congrArg List.length f2
      simpa using this
    rw [this, hacc, hcount]
  · have : r.length = (acceptedPairs v src ms).length := by
      have := congrArg List.length f2
      simpa using this
    rw [this, hacc]
    exact hpos

/-- No finite match at all, or a share outside [0,1]: the program stops. -/
theorem C42_stops {P Q : Type} {ratio : Rat} (src : List P) (tgt : List Q) {ms : List IcpMatch}
    (h : (∀ m ∈ ms, m.dist = none) ∨ ratio < 0 ∨ 1 < ratio) :
    icpSelect ratio src tgt ms = .abort := by
  unfold icpSelect distQuantile
  by_cases hr : 0 ≤ ratio ∧ ratio ≤ 1
  · rw [Outcome.check_pos hr]
    simp only [Outcome.bind_ok]
    rcases h with h | h | h
    · rw [Outcome.check_neg]
      · rfl
      · intro hc
        apply hc
        rw [List.filterMap_eq_nil_iff]
        exact h
    · exact absurd hr.1 (not_le.mpr h)
    · exact absurd hr.2 (not_le.mpr h)
  · rw [Outcome.check_neg hr]
    rfl

def selectView (r : Outcome (Rat × List (Nat × Nat))) : Option (Rat × List (Nat × Nat)) :=
  match r with
  | .ok x => some x
  | _ => none

/-- Instance: four matches, one without neighbour, share 1/2: the limit is the middle finite
distance. -/
example : selectView (icpSelect (1 / 2) [0, 1, 2, 3] [10, 11]
    [⟨some 4, 0⟩, ⟨none, 9⟩, ⟨some 1, 1⟩, ⟨some 2, 0⟩]) = some (2, [(2, 11), (3, 10)]) := by
  decide +kernel

/-- Whatever the increments, the loop ends: with fuel for max(1, limit) iterations there is a
result. -/
theorem C43_terminates {G : Type} [Group G] (inc : G → G → Outcome G) (conv : List G → Bool)
    (maxIt : Int) (mean guess : G) {fuel : Nat} (hf : max 1 maxIt ≤ fuel) :
    ∃ r, icpAlign inc conv maxIt mean guess fuel = some r := by
  have hf1 : (1 : Int) ≤ fuel := le_trans (le_max_left _ _) hf
  have hf2 : maxIt ≤ fuel := le_trans (le_max_right _ _) hf
  obtain ⟨r, hr⟩ := icpLoop_fuel (inc (mean⁻¹ * guess)) conv maxIt fuel 1 [1] 0 (by omega) (by omega)
  unfold icpAlign
  dsimp only
  rw [hr]
  cases r with
  | ok x => exact ⟨_, rfl⟩
  | abort => exact ⟨_, rfl⟩
  | ub => exact ⟨_, rfl⟩

/-- The number `k` of iterations, and when it stops.  The poses are the products of the increments,
newest on the left, starting from the identity; the result is the guess corrected by the last. -/
theorem C43_iterations {G : Type} [Group G] {inc : G → G → Outcome G} {conv : List G → Bool}
    {maxIt : Int} {mean guess : G} {fuel : Nat} {res : G} {hist : List G}
    (h : icpAlign inc conv maxIt mean guess fuel = some (.ok (res, hist))) :
    ∃ (k : Nat) (T : G), hist.length = k + 1 ∧ 1 ≤ k ∧ (k : Int) ≤ max 1 maxIt ∧
      -- it stopped for one of the two reasons, and did not stop before
      (conv hist = true ∨ maxIt ≤ k) ∧
      (∀ j, 1 ≤ j → j < k → conv (hist.take (j + 1)) = false ∧ (j : Int) < maxIt) ∧
      -- the poses
      hist.head? = some 1 ∧ hist.getLast? = some T ∧
      (∀ (j : Nat) (a b : G), hist[j]? = some a → hist[j + 1]? = some b →
        ∃ s, inc (mean⁻¹ * guess) a = .ok s ∧ b = s * a) ∧
      res = mean * T * mean⁻¹ * guess := by
  unfold icpAlign at h
  dsimp only at h
  cases hl : icpLoop (inc (mean⁻¹ * guess)) conv maxIt fuel 1 [1] 0 with
  | none => rw [hl] at h; cases h
  | some o =>
    rw [hl] at h
    cases o with
    | abort => cases h
    | ub => cases h
    | ok r =>
      obtain ⟨T, hi⟩ := r
      simp only [Option.some.injEq, Outcome.ok.injEq, Prod.mk.injEq] at h
      obtain ⟨rfl, rfl⟩ := h
      obtain ⟨new, e0, e1, e2, e3, e4, e5⟩ := (icpLoop_trace hl).steps
      simp only at e1 e2
      subst e1
      have hlen : 1 ≤ new.length := List.length_pos_iff.mpr e0
      refine ⟨new.length, T, by simp, hlen, ?_, ?_, ?_, by simp, ?_, ?_, by group⟩
      · rcases Nat.eq_or_lt_of_le hlen with h1 | h1
        · rw [← h1]; exact le_max_left _ _
        · obtain ⟨_, h2⟩ := e3 (new.length - 2) (by omega)
          refine le_trans ?_ (le_max_right _ _)
          have : ((new.length - 2 : Nat) : Int) = new.length - 2 := by omega
          rw [this] at h2
          omega
      · rcases e4 with h | h
        · exact Or.inl h
        · exact Or.inr (by omega)
      · intro j h1 h2
        obtain ⟨a, b⟩ := e3 (j - 1) (by omega)
        rw [show j - 1 + 1 = j by omega] at a
        refine ⟨?_, by omega⟩
        rw [List.singleton_append, List.take_succ_cons]
        exact a
      · rw [List.singleton_append, List.getLast?_cons, e2]; rfl
      · intro j a b ha hb
        exact e5 j a b (by simpa using ha) (by simpa using hb)

/-- The convergence test needs five poses, that is four iterations. -/
theorem C43_four {G : Type} {rd td : G → G → Rat} {hist : List G} {k : Nat}
    (hk : hist.length = k + 1) (h : checkConvergence rd td hist = true) : 4 ≤ k := by
  unfold checkConvergence at h
  split at h
  · omega
  · cases h

/-- The test looks at the last four steps only: their mean rotation and translation. -/
theorem C43_test {G : Type} (rd td : G → G → Rat) (old : List G) (a b c d e : G) :
    checkConvergence rd td (old ++ [a, b, c, d, e]) = true ↔
      (rd a b + rd b c + rd c d + rd d e) / 4 < 1 / 1000 ∧
      (td a b + td b c + td c d + td d e) / 4 < 1 / 100 := by
  unfold checkConvergence
  have hl : (old ++ [a, b, c, d, e]).length = old.length + 5 := by simp
  rw [hl, if_pos (by omega)]
  have hd : (old ++ [a, b, c, d, e]).drop (old.length + 5 - 5) = [a, b, c, d, e] := by
    rw [show old.length + 5 - 5 = old.length by omega]
    exact List.drop_left
  simp only [hd, consecutiveSum, Bool.and_eq_true, decide_eq_true_eq, add_zero, ← add_assoc]

/-- Increments that are all the identity leave the guess unchanged. -/
theorem C43_fixed {G : Type} [Group G] {conv : List G → Bool} {maxIt : Int} {mean guess : G}
    {fuel : Nat} {res : G} {hist : List G}
    (h : icpAlign (fun _ _ => .ok 1) conv maxIt mean guess fuel = some (.ok (res, hist))) :
    res = guess := by
  obtain ⟨k, T, hk, _, _, _, _, hh, hlast, hstep, hres⟩ := C43_iterations h
  have all : ∀ (j : Nat) (a : G), hist[j]? = some a → a = 1 := by
    intro j
    induction j with
    | zero =>
      intro a ha
      rw [List.head?_eq_getElem?, ha, Option.some.injEq] at hh
      exact hh
    | succ j ih =>
      intro b hb
      have hj : j < hist.length := by
        by_contra hc
        rw [List.getElem?_eq_none (by omega)] at hb
        cases hb
      obtain ⟨s, hs, rfl⟩ := hstep j hist[j] b (List.getElem?_eq_getElem hj) hb
      simp only [Outcome.ok.injEq] at hs
      rw [← hs, ih _ (List.getElem?_eq_getElem hj), one_mul]
  have hT : T = 1 := by
    rw [List.getLast?_eq_getElem?] at hlast
    exact all _ _ hlast
  rw [hres, hT]
  group

/-- Instance: steps of one metre never pass the test, so the limit of 6 decides; without any
movement the test stops it after four iterations. -/
example :
    icpAlign (G := Multiplicative Int) (fun _ _ => .ok (Multiplicative.ofAdd 1))
      (checkConvergence (fun _ _ => 0) (fun a b => if a = b then 0 else 1)) 6 1 1 6 =
        some (.ok (Multiplicative.ofAdd 6, [0, 1, 2, 3, 4, 5, 6].map Multiplicative.ofAdd)) ∧
    icpAlign (G := Multiplicative Int) (fun _ _ => .ok (Multiplicative.ofAdd 0))
      (checkConvergence (fun _ _ => 0) (fun a b => if a = b then 0 else 1)) 6 1 1 6 =
        some (.ok (Multiplicative.ofAdd 0, [0, 0, 0, 0, 0].map Multiplicative.ofAdd)) := by
  decide +kernel

/-! C44 -/

/-- The clouds last given at each alignment. -/
def wanted : List RegOp → RegState → List (Option RegCloud × Option RegCloud)
  | [], _ => []
  | .source c :: l, st => wanted l { st with source := c }
  | .target c :: l, st => wanted l { st with target := c }
  | .align :: l, st => (st.source, st.target) :: wanted l st

/-- Clouds the setter does not skip. -/
def regGiven (k : RegKind) (op : RegOp) : Prop :=
  match op with
  | .source c | .target c =>
    match k with
    | .icpFast => True
    | .ndt | .ndtGicp => ∀ x, c = some x → x.empty = false
    | .icpPM => ∃ x, c = some x ∧ x.empty = false
  | .align => True

/-- Each alignment that is carried out uses the clouds given last, whenever no empty cloud (for
icpPM: nor a null pointer) was given; the fast ICP needs no such condition.  Missing: an empty cloud
in between (`C44_empty_fails`). -/
theorem C44_uses_last_partial (k : RegKind) (ops : List RegOp) (st : RegState)
    (hg : ∀ op ∈ ops, regGiven k op) {rs : List (Option (RegCloud × RegCloud))}
    (h : regRun k ops st = .ok rs) :
    rs.length = (wanted ops st).length ∧
    ∀ (i : Nat) (s t : RegCloud), rs[i]? = some (some (s, t)) →
      (wanted ops st)[i]? = some (some s, some t) := by
  induction ops generalizing st rs with
  | nil =>
    simp only [regRun, Outcome.ok.injEq] at h
    subst h
    exact ⟨rfl, by intro i s t hi; simp at hi⟩
  | cons op ops ih =>
    have hgo := hg op List.mem_cons_self
    have hgr := fun o ho => hg o (List.mem_cons_of_mem _ ho)
    cases op with
    | source c =>
      rw [regRun, Outcome.bind_eq_ok] at h
      obtain ⟨st', h1, h2⟩ := h
      have e : st' = { st with source := c } := by
        cases k with
        | icpFast =>
          cases c with
          | none => cases h1
          | some c => simp only [regSetSource, Outcome.ok.injEq] at h1; exact h1.symm
        | ndt =>
          simp only [regSetSource, Outcome.ok.injEq] at h1
          subst h1
          cases c with
          | none => rfl
          | some c => simp [regSetBase, hgo c rfl]
        | ndtGicp =>
          simp only [regSetSource, Outcome.ok.injEq] at h1
          subst h1
          cases c with
          | none => rfl
          | some c => simp [regSetBase, hgo c rfl]
        | icpPM =>
          obtain ⟨x, rfl, hx⟩ := hgo
          simp only [regSetSource, regSetPM, hx, Bool.false_eq_true, if_false] at h1
          by_cases hn : x.nan = true
          · rw [if_pos hn] at h1; cases h1
          · rw [if_neg hn] at h1
            simp only [Outcome.bind_ok, Outcome.pure_eq, Outcome.ok.injEq] at h1
            exact h1.symm
      rw [e] at h2
      exact ih _ hgr h2
    | target c =>
      rw [regRun, Outcome.bind_eq_ok] at h
      obtain ⟨st', h1, h2⟩ := h
      have e : st' = { st with target := c } := by
        cases k with
        | icpFast =>
          cases c with
          | none => cases h1
          | some c =>
            simp only [regSetTarget] at h1
            by_cases hn : c.normals = true
            · rw [if_pos hn, Outcome.ok.injEq] at h1; exact h1.symm
            · rw [if_neg hn] at h1; cases h1
        | ndt =>
          simp only [regSetTarget, Outcome.ok.injEq] at h1
          subst h1
          cases c with
          | none => rfl
          | some c => simp [regSetBase, hgo c rfl]
        | ndtGicp =>
          simp only [regSetTarget, Outcome.ok.injEq] at h1
          subst h1
          cases c with
          | none => rfl
          | some c => simp [regSetBase, hgo c rfl]
        | icpPM =>
          obtain ⟨x, rfl, hx⟩ := hgo
          simp only [regSetTarget, regSetPM, hx, Bool.false_eq_true, if_false] at h1
          by_cases hn : x.nan = true
          · rw [if_pos hn] at h1; cases h1
          · rw [if_neg hn] at h1
            simp only [Outcome.bind_ok, Outcome.pure_eq, Outcome.ok.injEq] at h1
            exact h1.symm
      rw [e] at h2
      exact ih _ hgr h2
    | align =>
      rw [regRun, Outcome.bind_eq_ok] at h
      obtain ⟨r, h1, h2⟩ := h
      rw [Outcome.bind_eq_ok] at h2
      obtain ⟨rs', h3, h4⟩ := h2
      simp only [Outcome.pure_eq, Outcome.ok.injEq] at h4
      subst h4
      obtain ⟨l1, l2⟩ := ih st hgr h3
      refine ⟨by simp [wanted, l1], ?_⟩
      intro i s t hi
      cases i with
      | zero =>
        simp only [List.getElem?_cons_zero, Option.some.injEq] at hi
        subst hi
        simp only [wanted, List.getElem?_cons_zero, Option.some.injEq, Prod.mk.injEq]
        unfold regAlign at h1
        cases hs : st.source with
        | none => rw [hs] at h1; cases k <;> simp at h1
        | some s' =>
          cases ht : st.target with
          | none => rw [hs, ht] at h1; cases k <;> simp at h1
          | some t' =>
            rw [hs, ht] at h1
            simp only [Outcome.ok.injEq, Option.some.injEq, Prod.mk.injEq] at h1
            rw [h1.1, h1.2]
            exact ⟨rfl, rfl⟩
      | succ i =>
        simp only [List.getElem?_cons_succ, wanted] at hi ⊢
        exact l2 i s t hi

def regCloud (i : Nat) (empty : Bool) : RegCloud := { id := i, empty := empty, nan := false, normals := true }

/-- With an empty cloud given in between, the matchers other than the fast ICP silently align the
older cloud. -/
theorem C44_empty_fails : ∀ k, k ≠ RegKind.icpFast →
    regRun k [.source (some (regCloud 1 false)), .target (some (regCloud 2 false)), .align,
      .source (some (regCloud 3 true)), .align] ⟨none, none⟩ =
      .ok [some (regCloud 1 false, regCloud 2 false), some (regCloud 1 false, regCloud 2 false)] := by
  intro k hk
  cases k with
  | icpFast => exact absurd rfl hk
  | ndt => rfl
  | ndtGicp => rfl
  | icpPM => rfl

/-- Instance of `C44_uses_last_partial` with two alignments. -/
example : regRun .icpFast [.source (some (regCloud 1 false)), .target (some (regCloud 2 false)),
    .align, .source (some (regCloud 3 true)), .align] ⟨none, none⟩ =
      .ok [some (regCloud 1 false, regCloud 2 false), some (regCloud 3 true, regCloud 2 false)] := rfl

theorem icpFetch_ub {P Q : Type} (tgt : List Q) (l : List (P × IcpMatch)) :
    icpFetch tgt l = .ub ↔ ∃ pm ∈ l, tgt.length ≤ pm.2.id := by
  induction l with
  | nil => simp [icpFetch]
  | cons pm l ih =>
    obtain ⟨p, m⟩ := pm
    rw [icpFetch]
    cases ht : tgt[m.id]? with
    | none =>
      simp only [List.mem_cons, exists_eq_or_imp, true_iff]
      exact Or.inl (by rwa [List.getElem?_eq_none_iff] at ht)
    | some t =>
      dsimp only
      have hlt := (List.getElem?_eq_some_iff.1 ht).1
      rw [Outcome.bind_eq_ub, ih]
      simp only [List.mem_cons, exists_eq_or_imp, Outcome.pure_eq]
      constructor
      · rintro (h | ⟨_, _, h⟩)
        · exact Or.inr h
        · cases h
      · rintro (h | h)
        · exact absurd hlt (not_lt.2 h)
        · exact Or.inl h

theorem icpKept_mem {P : Type} : ∀ (ps : List P) (ms : List IcpMatch) (limit : Rat), ms.length = ps.length →
    ∀ m, (∃ p, (p, m) ∈ icpKept ps ms (icpWeights limit ms)) ↔ m ∈ ms ∧ ∃ d, m.dist = some d ∧ d ≤ limit
  | [], [], _, _, m => by simp [icpKept]
  | [], _ :: _, _, h, _ => by simp at h
  | _ :: _, [], _, h, _ => by simp at h
  | p :: ps, m0 :: ms, limit, h, m => by
    have ih := icpKept_mem ps ms limit (by simpa using h) m
    unfold icpWeights at *
    rw [List.map_cons, icpKept]
    simp only [List.mem_append, List.mem_cons]
    cases hd : m0.dist with
    | none =>
      simp only [Option.isSome_none, Bool.false_and, Bool.false_eq_true, if_false, List.not_mem_nil, false_or]
      rw [ih]
      constructor
      · rintro ⟨h1, h2⟩; exact ⟨Or.inr h1, h2⟩
      · rintro ⟨rfl | h1, d, h2, h3⟩
        · rw [hd] at h2; cases h2
        · exact ⟨h1, d, h2, h3⟩
    | some d0 =>
      simp only [Option.isSome_some, Bool.true_and]
      by_cases hl : d0 ≤ limit
      · simp only [hl, decide_true, if_true, List.mem_singleton, Prod.mk.injEq]
        constructor
        · rintro ⟨q, ⟨_, rfl⟩ | hq⟩
          · exact ⟨Or.inl rfl, d0, hd, hl⟩
          · have := ih.1 ⟨q, hq⟩
            exact ⟨Or.inr this.1, this.2⟩
        · rintro ⟨rfl | h1, h2⟩
          · exact ⟨p, Or.inl ⟨rfl, rfl⟩⟩
          · obtain ⟨q, hq⟩ := ih.2 ⟨h1, h2⟩
            exact ⟨q, Or.inr hq⟩
      · simp only [hl, decide_false, Bool.false_eq_true, if_false, List.not_mem_nil, false_or]
        rw [ih]
        constructor
        · rintro ⟨h1, h2⟩; exact ⟨Or.inr h1, h2⟩
        · rintro ⟨rfl | h1, d, h2, h3⟩
          · rw [hd, Option.some.injEq] at h2; subst h2; exact absurd h3 hl
          · exact ⟨h1, d, h2, h3⟩

/-- C42: with one match per source point, the selection reads outside the target cloud exactly if a match
within the limit has an index outside it. -/
theorem C42_undefined {P Q : Type} {ratio limit : Rat} {src : List P} {tgt : List Q} {ms : List IcpMatch}
    (hl : ms.length = src.length) (hlim : distQuantile ratio ms = .ok limit) :
    icpSelect ratio src tgt ms = .ub ↔ ∃ m ∈ ms, (∃ d, m.dist = some d ∧ d ≤ limit) ∧ tgt.length ≤ m.id := by
  have hq := hlim
  unfold distQuantile at hq
  simp only [Outcome.check_bind_eq_ok] at hq
  obtain ⟨⟨h0, h1⟩, hne, _⟩ := hq
  obtain ⟨v, e1, e2, e3, e4⟩ := distQuantile_ok h0 h1 hne
  rw [hlim, Outcome.ok.injEq] at e1
  subst e1
  have hcount := weights_count limit ms
  have hpos : 0 < (icpWeights limit ms).countP id := by
    rw [hcount, List.countP_pos_iff]
    exact ⟨limit, e2, by simp⟩
  have hacc := acceptedPairs_length (P := P) limit hl
  have he : icpSelect ratio src tgt ms =
      (icpFetch tgt (icpKept src ms (icpWeights limit ms))).bind fun ps => .ok (limit, ps) := by
    unfold icpSelect errorElements
    rw [hlim]
    simp only [Outcome.bind_ok]
    rw [Outcome.check_pos (by simp [icpWeights, hl])]
    simp only [Outcome.bind_ok]
    rw [Outcome.check_pos (by
      obtain ⟨m, hm, _⟩ := List.mem_filterMap.1 e2
      exact List.length_pos_of_mem hm)]
    simp only [Outcome.bind_ok]
    rw [Outcome.check_pos hl]
    simp only [Outcome.bind_ok]
    rw [Outcome.check_pos hpos]
    simp only [Outcome.bind_ok]
    rw [icpKept_eq, Outcome.check_pos hacc]
    rfl
  rw [he]
  have hb : ∀ o : Outcome (List (P × Q)), (o.bind fun ps => Outcome.ok (limit, ps)) = .ub ↔ o = .ub := by
    intro o; cases o <;> simp [Outcome.bind]
  rw [hb, icpFetch_ub]
  constructor
  · rintro ⟨⟨p, m⟩, hpm, hid⟩
    have := (icpKept_mem src ms limit hl m).1 ⟨p, hpm⟩
    exact ⟨m, this.1, this.2, hid⟩
  · rintro ⟨m, hm, hd, hid⟩
    obtain ⟨p, hp⟩ := (icpKept_mem src ms limit hl m).2 ⟨hm, hd⟩
    exact ⟨(p, m), hp, hid⟩

/-- One source point matched to a target point that is not there. -/
example : (1 : Rat) ≤ 1 ∧ icpSelect 1 [()] [()] [⟨some 2, 1⟩] = .ub := by
  have h : distQuantile 1 [⟨some 2, 1⟩] = .ok 2 := by decide +kernel
  exact ⟨le_refl _, (C42_undefined (src := [()]) (tgt := [()]) rfl h).2
    ⟨⟨some 2, 1⟩, List.mem_singleton.2 rfl, ⟨2, rfl, le_refl _⟩, le_refl _⟩⟩

/-- C42: the index of the limit, which the code computes in `double` from the `float` share and converts to
`int` (icp_fast.cc:86), is the exact one for up to 2²⁹ matches, and it is inside the array. -/
theorem C42_index {ratio : Rat} (hf : toF32 ratio = ratio) (h0 : 0 ≤ ratio) (h1 : ratio < 1) {n : Nat}
    (hn : 0 < n) (hb : n ≤ 2 ^ 29) :
    truncInt (toF64 (n * ratio)) = truncInt (n * ratio) ∧ 0 ≤ truncInt (n * ratio) ∧
      truncInt (n * ratio) < n ∧ truncInt (n * ratio) < 2 ^ 31 := by
  have e := natMul_exact (h := ratio) hf n hb
  have hp : (0 : Rat) ≤ n * ratio := mul_nonneg (Nat.cast_nonneg n) h0
  have hlt : (n : Rat) * ratio < n := by
    have : (0 : Rat) < n := by exact_mod_cast hn
    nlinarith
  have ht : truncInt (n * ratio) = ⌊(n : Rat) * ratio⌋ := by unfold truncInt; rw [if_pos hp]
  have hfl : ⌊(n : Rat) * ratio⌋ < n := by rw [Int.floor_lt]; exact_mod_cast hlt
  refine ⟨by rw [e], by rw [ht]; exact Int.floor_nonneg.2 hp, by rw [ht]; exact hfl, ?_⟩
  rw [ht]
  have : (n : Int) ≤ 2 ^ 29 := by exact_mod_cast hb
  omega

/-- C43: an alignment ends in a failed check, or in undefined behaviour, exactly if one of its increments
did; a failure of the first one is always passed on. -/
theorem C43_faults {G : Type} [Group G] (inc : G → G → Outcome G) (conv : List G → Bool) (maxIt : Int)
    (mean guess : G) (fuel : Nat) :
    (icpAlign inc conv maxIt mean guess fuel = some .abort → ∃ T, inc (mean⁻¹ * guess) T = .abort) ∧
    (icpAlign inc conv maxIt mean guess fuel = some .ub → ∃ T, inc (mean⁻¹ * guess) T = .ub) ∧
    (inc (mean⁻¹ * guess) 1 = .abort → icpAlign inc conv maxIt mean guess (fuel + 1) = some .abort) ∧
    (inc (mean⁻¹ * guess) 1 = .ub → icpAlign inc conv maxIt mean guess (fuel + 1) = some .ub) := by
  have loop : ∀ (f : G → Outcome G) (fuel : Nat) (T : G) (hist : List G) (it : Int),
      (icpLoop f conv maxIt fuel T hist it = some .abort → ∃ T, f T = .abort) ∧
      (icpLoop f conv maxIt fuel T hist it = some .ub → ∃ T, f T = .ub) := by
    intro f fuel
    induction fuel with
    | zero => intro T hist it; simp [icpLoop]
    | succ n ih =>
      intro T hist it
      rw [icpLoop]
      cases hf : f T with
      | abort => exact ⟨fun _ => ⟨T, hf⟩, fun h => by simp at h⟩
      | ub => exact ⟨fun h => by simp at h, fun _ => ⟨T, hf⟩⟩
      | ok s =>
        dsimp only
        split
        · simp
        · exact ih _ _ _
  refine ⟨?_, ?_, ?_, ?_⟩
  · intro h
    unfold icpAlign at h
    dsimp only at h
    split at h
    · simp at h
    · rename_i he; exact (loop _ _ _ _ _).1 he
    · simp at h
    · simp at h
  · intro h
    unfold icpAlign at h
    dsimp only at h
    split at h
    · simp at h
    · simp at h
    · rename_i he; exact (loop _ _ _ _ _).2 he
    · simp at h
  · intro h
    unfold icpAlign
    dsimp only
    rw [icpLoop, h]
  · intro h
    unfold icpAlign
    dsimp only
    rw [icpLoop, h]

end Verif
