import Verif.Model.IcpFast
import Mathlib.Tactic.Linarith
import Mathlib.Tactic.Group
import Mathlib.Data.Rat.Floor
import Mathlib.Algebra.Order.Floor.Ring
/-! Proofs for C42 and C43. -/
namespace Verif

theorem maxElem_spec {l : List Rat} {v : Rat} (h : maxElem l = some v) :
    v ∈ l ∧ ∀ x ∈ l, x ≤ v := by
  cases l with
  | nil => cases h
  | cons x l =>
    simp only [maxElem, Option.some.injEq] at h
    subst h
    induction l generalizing x with
    | nil => simp
    | cons y l ih =>
      simp only [List.foldl_cons]
      obtain ⟨h1, h2⟩ := ih (max x y)
      constructor
      · rcases List.mem_cons.mp h1 with h | h
        · rw [h]
          rcases max_choice x y with e | e <;> rw [e] <;> simp
        · exact List.mem_cons_of_mem _ (List.mem_cons_of_mem _ h)
      · have h0 := h2 (max x y) List.mem_cons_self
        intro z hz
        rcases List.mem_cons.mp hz with rfl | hz
        · exact le_trans (le_max_left _ _) h0
        · rcases List.mem_cons.mp hz with rfl | hz
          · exact le_trans (le_max_right _ _) h0
          · exact h2 z (List.mem_cons_of_mem _ hz)

/-- In a sorted list the first `i + 1` elements are at most the element at `i`; those below it are
among the first `i`. -/
theorem sorted_counts {l : List Rat} (hs : l.Pairwise (· ≤ ·)) {i : Nat} {v : Rat}
    (h : l[i]? = some v) :
    i + 1 ≤ l.countP (fun x => decide (x ≤ v)) ∧ l.countP (fun x => decide (x < v)) ≤ i := by
  induction l generalizing i with
  | nil => simp at h
  | cons x l ih =>
    obtain ⟨hx, hl⟩ := List.pairwise_cons.mp hs
    cases i with
    | zero =>
      simp only [List.getElem?_cons_zero, Option.some.injEq] at h
      subst h
      constructor
      · rw [List.countP_cons_of_pos (by simp)]; omega
      · rw [List.countP_cons_of_neg (by simp)]
        rw [List.countP_eq_zero.mpr]
        intro y hy
        have := hx y hy
        simpa using this
    | succ i =>
      simp only [List.getElem?_cons_succ] at h
      obtain ⟨h1, h2⟩ := ih hl h
      have hxv : x ≤ v := hx v (List.mem_of_getElem? h)
      constructor
      · rw [List.countP_cons_of_pos (by simpa using hxv)]; omega
      · have := List.countP_cons (p := fun x => decide (x < v)) (a := x) (l := l)
        rw [this]
        split <;> omega

theorem distQuantile_ok {q : Rat} (h0 : 0 ≤ q) (h1 : q ≤ 1) {ms : List IcpMatch}
    (hne : ms.filterMap IcpMatch.dist ≠ []) :
    ∃ v, distQuantile q ms = .ok v ∧ v ∈ ms.filterMap IcpMatch.dist ∧
      q * (ms.filterMap IcpMatch.dist).length ≤
        ((ms.filterMap IcpMatch.dist).countP fun d => decide (d ≤ v) : Nat) ∧
      (((ms.filterMap IcpMatch.dist).countP fun d => decide (d < v) : Nat) : Rat) ≤
        q * (ms.filterMap IcpMatch.dist).length := by
  unfold distQuantile
  rw [Outcome.check_pos ⟨h0, h1⟩]
  simp only [Outcome.bind_ok]
  rw [Outcome.check_pos hne]
  simp only [Outcome.bind_ok]
  set vs := ms.filterMap IcpMatch.dist with hvs
  by_cases hq : q = 1
  · rw [if_pos hq]
    cases hm : maxElem vs with
    | none =>
      cases hv : vs with
      | nil => exact absurd hv hne
      | cons x l => rw [hv] at hm; cases hm
    | some v =>
      obtain ⟨a, b⟩ := maxElem_spec hm
      refine ⟨v, rfl, a, ?_, ?_⟩
      · rw [hq, one_mul]
        have : vs.countP (fun d => decide (d ≤ v)) = vs.length := by
          rw [List.countP_eq_length]
          intro x hx
          simpa using b x hx
        rw [this]
      · rw [hq, one_mul]
        exact_mod_cast List.countP_le_length
  · rw [if_neg hq]
    have hq1 : q < 1 := lt_of_le_of_ne h1 hq
    have hn : 0 < vs.length := List.length_pos_iff.mpr hne
    have hnq : (0 : Rat) < vs.length := by exact_mod_cast hn
    have hprod : (0 : Rat) ≤ vs.length * q := mul_nonneg hnq.le h0
    have hti : truncInt (vs.length * q) = ⌊(vs.length * q : Rat)⌋ := by
      unfold truncInt; rw [if_pos hprod]
    have hfl0 : 0 ≤ ⌊(vs.length * q : Rat)⌋ := Int.floor_nonneg.mpr hprod
    have hlt : ⌊(vs.length * q : Rat)⌋ < (vs.length : Int) := by
      rw [Int.floor_lt]
      push_cast
      nlinarith
    set i := (truncInt (vs.length * q)).toNat with hi
    have hiz : (i : Int) = ⌊(vs.length * q : Rat)⌋ := by rw [hi, hti]; omega
    have hil : i < (vs.insertionSort (· ≤ ·)).length := by
      rw [List.length_insertionSort]; omega
    have hget : (vs.insertionSort (· ≤ ·))[i]? = some (vs.insertionSort (· ≤ ·))[i] :=
      List.getElem?_eq_getElem hil
    rw [hget]
    obtain ⟨c1, c2⟩ := sorted_counts (List.pairwise_insertionSort (· ≤ ·) vs) hget
    have hperm := List.perm_insertionSort (· ≤ ·) vs
    rw [hperm.countP_eq] at c1 c2
    have hir : (i : Rat) = (⌊(vs.length * q : Rat)⌋ : Int) := by exact_mod_cast hiz
    refine ⟨_, rfl, hperm.mem_iff.mp (List.getElem_mem hil), ?_, ?_⟩
    · have hf := Int.lt_floor_add_one (vs.length * q : Rat)
      have hc : ((i + 1 : Nat) : Rat) ≤ (vs.countP fun d =>
          decide (d ≤ (vs.insertionSort (· ≤ ·))[i]) : Nat) := by exact_mod_cast c1
      push_cast at hc
      rw [hir] at hc
      linarith
    · have hf := Int.floor_le (vs.length * q : Rat)
      have hc : ((vs.countP fun d =>
          decide (d < (vs.insertionSort (· ≤ ·))[i]) : Nat) : Rat) ≤ i := by exact_mod_cast c2
      rw [hir] at hc
      linarith

/-- The accepted points with their matches. -/
def acceptedPairs {P : Type} (limit : Rat) (src : List P) (ms : List IcpMatch) :
    List (P × IcpMatch) :=
  (src.zip ms).filter fun x => match x.2.dist with
    | some d => decide (d ≤ limit)
    | none => false

theorem icpKept_eq {P : Type} (limit : Rat) (src : List P) (ms : List IcpMatch) :
    icpKept src ms (icpWeights limit ms) = acceptedPairs limit src ms := by
  induction src generalizing ms with
  | nil => cases ms <;> rfl
  | cons p ps ih =>
    cases ms with
    | nil => rfl
    | cons m ms =>
      have h := ih ms
      unfold acceptedPairs icpWeights at h ⊢
      simp only [List.map_cons, icpKept, List.zip_cons_cons, h]
      cases hd : m.dist with
      | none => simp [hd]
      | some d =>
        by_cases hc : d ≤ limit <;> simp [hd, hc]

theorem acceptedPairs_length {P : Type} (limit : Rat) {src : List P} {ms : List IcpMatch}
    (h : ms.length = src.length) :
    (acceptedPairs limit src ms).length = (icpWeights limit ms).countP id := by
  induction src generalizing ms with
  | nil =>
    cases ms with
    | nil => rfl
    | cons m ms => cases h
  | cons p ps ih =>
    cases ms with
    | nil => cases h
    | cons m ms =>
      have h := ih (by simpa using h)
      unfold acceptedPairs icpWeights at h ⊢
      simp only [List.map_cons, List.zip_cons_cons, List.filter_cons, List.countP_cons]
      cases hd : m.dist with
      | none => simpa [hd] using h
      | some d =>
        by_cases hc : d ≤ limit
        · simp [hc, h]
        · simpa [hc] using h

theorem weights_count (limit : Rat) (ms : List IcpMatch) :
    (icpWeights limit ms).countP id =
      (ms.filterMap IcpMatch.dist).countP fun d => decide (d ≤ limit) := by
  induction ms with
  | nil => rfl
  | cons m ms ih =>
    unfold icpWeights at ih ⊢
    simp only [List.map_cons, List.countP_cons, List.filterMap_cons, ih]
    cases hd : m.dist with
    | none => simp
    | some d => simp [List.countP_cons]

theorem icpFetch_ok {P Q : Type} (tgt : List Q) {l : List (P × IcpMatch)}
    (h : ∀ x ∈ l, x.2.id < tgt.length) :
    ∃ r, icpFetch tgt l = .ok r ∧ r.map Prod.fst = l.map Prod.fst ∧
      r.map (fun x => some x.2) = l.map (fun x => tgt[x.2.id]?) := by
  induction l with
  | nil => exact ⟨[], rfl, rfl, rfl⟩
  | cons x l ih =>
    obtain ⟨p, m⟩ := x
    obtain ⟨r, e1, e2, e3⟩ := ih fun y hy => h y (List.mem_cons_of_mem _ hy)
    have hm := h (p, m) List.mem_cons_self
    simp only at hm
    have hg : tgt[m.id]? = some tgt[m.id] := List.getElem?_eq_getElem hm
    refine ⟨(p, tgt[m.id]) :: r, ?_, by simp [e2], by simp [e3, hg]⟩
    rw [icpFetch, hg]
    simp only [e1, Outcome.bind_ok, Outcome.pure_eq]

/-! The loop. -/

variable {G : Type}

/-- The poses `hist` extended by running the increments from its last pose `T`: every new pose is an
increment applied to the one before, and the loop went on exactly while not converged and below the
limit. -/
structure IcpTrace [Mul G] (inc : G → Outcome G) (conv : List G → Bool) (maxIt : Int)
    (hist : List G) (n : Int) (T : G) (r : G × List G) : Prop where
  steps : ∃ new : List G, new ≠ [] ∧ r.2 = hist ++ new ∧ new.getLast? = some r.1 ∧
    (∀ j : Nat, j + 1 < new.length → conv (hist ++ new.take (j + 1)) = false ∧ n + (j + 1) < maxIt) ∧
    (conv (hist ++ new) = true ∨ maxIt ≤ n + new.length) ∧
    ∀ (j : Nat) (a b : G), (T :: new)[j]? = some a → new[j]? = some b → ∃ s, inc a = .ok s ∧ b = s * a

theorem icpLoop_trace [Mul G] {inc : G → Outcome G} {conv : List G → Bool} {maxIt : Int}
    {fuel : Nat} {T : G} {hist : List G} {n : Int} {r : G × List G}
    (h : icpLoop inc conv maxIt fuel T hist n = some (.ok r)) :
    IcpTrace inc conv maxIt hist n T r := by
  induction fuel generalizing T hist n with
  | zero => cases h
  | succ fuel ih =>
    rw [icpLoop] at h
    cases hi : inc T with
    | abort => rw [hi] at h; cases h
    | ub => rw [hi] at h; cases h
    | ok s =>
      rw [hi] at h
      dsimp only at h
      split at h
      · rename_i hstop
        simp only [Option.some.injEq, Outcome.ok.injEq] at h
        subst h
        refine ⟨[s * T], by simp, rfl, rfl, ?_, ?_, ?_⟩
        · intro j hj; simp at hj
        · rw [Bool.or_eq_true, decide_eq_true_eq] at hstop
          rcases hstop with h | h
          · exact Or.inl h
          · right; simpa using h
        · intro j a b ha hb
          cases j with
          | zero =>
            simp only [List.getElem?_cons_zero, Option.some.injEq] at ha hb
            subst ha; subst hb
            exact ⟨s, hi, rfl⟩
          | succ j => simp at hb
      · rename_i hgo
        rw [Bool.not_eq_true, Bool.or_eq_false_iff, decide_eq_false_iff_not] at hgo
        obtain ⟨new, e0, e1, e2, e3, e4, e5⟩ := (ih h).steps
        refine ⟨s * T :: new, by simp, by rw [e1]; simp, ?_, ?_, ?_, ?_⟩
        · rw [List.getLast?_cons]; simp [e2]
        · intro j hj
          cases j with
          | zero => exact ⟨by simpa using hgo.1, by simp only [Nat.cast_zero, zero_add]; omega⟩
          | succ j =>
            simp only [List.length_cons] at hj
            obtain ⟨a, b⟩ := e3 j (by omega)
            refine ⟨?_, by push_cast; omega⟩
            simpa [List.append_assoc] using a
        · rcases e4 with e4 | e4
          · left; simpa [List.append_assoc] using e4
          · right; simp only [List.length_cons]; push_cast; omega
        · intro j a b ha hb
          cases j with
          | zero =>
            simp only [List.getElem?_cons_zero, Option.some.injEq] at ha hb
            subst ha; subst hb
            exact ⟨s, hi, rfl⟩
          | succ j =>
            simp only [List.getElem?_cons_succ] at ha hb
            exact e5 j a b ha hb

theorem icpLoop_fuel [Mul G] (inc : G → Outcome G) (conv : List G → Bool) (maxIt : Int)
    (fuel : Nat) (T : G) (hist : List G) (n : Int) (h : 1 ≤ fuel) (hf : maxIt ≤ n + fuel) :
    ∃ r, icpLoop inc conv maxIt fuel T hist n = some r := by
  induction fuel generalizing T hist n with
  | zero => omega
  | succ fuel ih =>
    rw [icpLoop]
    cases inc T with
    | abort => exact ⟨_, rfl⟩
    | ub => exact ⟨_, rfl⟩
    | ok s =>
      dsimp only
      split
      · exact ⟨_, rfl⟩
      · rename_i hgo
        rw [Bool.not_eq_true, Bool.or_eq_false_iff, decide_eq_false_iff_not] at hgo
        apply ih
        · push_cast at hf; omega
        · push_cast at hf; omega

end Verif
