import Verif.Spec.Loop
import Mathlib.Tactic.Linarith
import Mathlib.Data.List.Nodup
import Mathlib.Data.List.Infix
/-! Proofs for C37, C38. -/
namespace Verif
open Spec

theorem pickAll_ok (l : List Nat) : ∀ (is : List Nat), (∀ i ∈ is, i < l.length) →
    ∃ vs, pickAll l is = .ok vs ∧ vs.length = is.length ∧
      (∀ v ∈ vs, v ∈ l) ∧ (l.Nodup → is.Nodup → vs.Nodup ∧ ∀ v ∈ vs, ∃ i ∈ is, l[i]? = some v) := by
  intro is
  induction is with
  | nil => intro _; exact ⟨[], rfl, rfl, by simp, by simp⟩
  | cons i is ih =>
    intro h
    obtain ⟨vs, h1, h2, h3, h4⟩ := ih (fun j hj => h j (List.mem_cons_of_mem _ hj))
    have hi : i < l.length := h i List.mem_cons_self
    have e : l[i]? = some l[i] := List.getElem?_eq_getElem hi
    refine ⟨l[i] :: vs, by simp only [pickAll, e, h1, Outcome.bind_ok, Outcome.pure_eq],
      by simp [h2], ?_, ?_⟩
    · intro v hv
      rcases List.mem_cons.mp hv with rfl | hv
      · exact List.getElem_mem hi
      · exact h3 v hv
    · intro hn hni
      rw [List.nodup_cons] at hni
      obtain ⟨a, b⟩ := h4 hn hni.2
      refine ⟨List.nodup_cons.mpr ⟨?_, a⟩, ?_⟩
      · intro hm
        obtain ⟨j, hj, ej⟩ := b _ hm
        have hjl : j < l.length := h j (List.mem_cons_of_mem _ hj)
        rw [List.getElem?_eq_getElem hjl] at ej
        have : j = i := (List.Nodup.getElem_inj_iff hn).mp (Option.some.inj ej)
        exact hni.1 (this ▸ hj)
      · intro v hv
        rcases List.mem_cons.mp hv with rfl | hv
        · exact ⟨i, List.mem_cons_self, e⟩
        · obtain ⟨j, hj, ej⟩ := b v hv
          exact ⟨j, List.mem_cons_of_mem _ hj, ej⟩

/-- The selection: part of the list, no repetition, at most `num` of them, not empty. -/
theorem loopSelect_ok {num : Int} (hn : 1 ≤ num) {l : List Nat} (hl : l.Nodup) :
    ∃ vs, loopSelect num l = .ok vs ∧ (∀ v ∈ vs, v ∈ l) ∧ vs.Nodup ∧ (vs.length : Int) ≤ num ∧
      (l ≠ [] → vs ≠ []) := by
  unfold loopSelect
  rw [if_neg (by omega)]
  by_cases h0 : l = []
  · rw [if_pos h0]
    exact ⟨[], rfl, by simp, by simp, by simp; omega, fun h => absurd h0 h⟩
  · rw [if_neg h0]
    have hpos : 0 < l.length := List.length_pos_iff.mpr h0
    obtain ⟨n, rfl⟩ : ∃ n : Nat, num = n := ⟨num.toNat, (Int.toNat_of_nonneg (by omega)).symm⟩
    have hn1 : 1 ≤ n := by omega
    by_cases h1 : (0 : Int) ≤ n ∧ 2 * (n : Int) ≤ l.length
    · rw [if_pos h1, if_neg (by omega), Int.toNat_natCast]
      have hlen : 2 * n ≤ l.length := by omega
      have hstep : 0 < l.length / n := Nat.div_pos (by omega) (by omega)
      have hmul : n * (l.length / n) ≤ l.length := Nat.mul_div_le _ _
      obtain ⟨vs, e1, e2, e3, e4⟩ := pickAll_ok l ((List.range n).map fun i => i * (l.length / n))
        (by
          intro i hi
          obtain ⟨k, hk, rfl⟩ := List.mem_map.mp hi
          rw [List.mem_range] at hk
          calc k * (l.length / n) < n * (l.length / n) := Nat.mul_lt_mul_of_pos_right hk hstep
            _ ≤ l.length := hmul)
      have hnd : ((List.range n).map fun i => i * (l.length / n)).Nodup := by
        refine List.Nodup.map ?_ List.nodup_range
        intro a b hab
        exact Nat.eq_of_mul_eq_mul_right hstep hab
      refine ⟨vs, e1, e3, (e4 hl hnd).1, by rw [e2]; simp, ?_⟩
      intro _ hvs
      rw [hvs] at e2
      simp at e2
      omega
    · rw [if_neg h1]
      by_cases h2 : (0 : Int) ≤ n ∧ (n : Int) < l.length
      · rw [if_pos h2, Int.toNat_natCast]
        refine ⟨_, rfl, fun v hv => List.mem_of_mem_take hv, hl.sublist (List.take_sublist _ _), ?_, ?_⟩
        · rw [List.length_take]; omega
        · intro _ ht
          have : (l.take n).length = 0 := by rw [ht]; rfl
          rw [List.length_take] at this
          omega
      · rw [if_neg h2]
        exact ⟨l, rfl, fun v hv => hv, hl, by omega, fun h => h⟩

theorem loopClosest_mem (f : LoopFrame) (l : List Nat) : ∀ b : Option (Nat × Rat),
    ∀ r, l.foldl (fun best i =>
      match best with
      | none => some (i, f.xy i)
      | some (b, d) => if f.xy i < d then some (i, f.xy i) else some (b, d)) b = some r →
      b = some r ∨ r.1 ∈ l := by
  induction l with
  | nil => intro b r h; exact Or.inl h
  | cons i is ih =>
    intro b r h
    rw [List.foldl_cons] at h
    rcases ih _ r h with h | h
    · cases b with
      | none =>
        simp only [Option.some.injEq] at h
        subst h; right; exact List.mem_cons_self
      | some bd =>
        obtain ⟨b, d⟩ := bd
        simp only at h
        split at h
        · simp only [Option.some.injEq] at h
          subst h; right; exact List.mem_cons_self
        · left; exact h
    · right; exact List.mem_cons_of_mem _ h

theorem loopClosestOk_mem {s : LoopSettings} {f : LoopFrame} {l : List Nat} {c : Nat}
    (h : loopClosestOk s f l = some c) : c ∈ l := by
  unfold loopClosestOk at h
  split at h
  · cases h
  · rename_i i d hc
    split at h
    · cases h
    · simp only [Option.some.injEq] at h
      subst h
      rcases loopClosest_mem f l none _ hc with h | h
      · cases h
      · exact h

theorem loopNear_spec {s : LoopSettings} {f : LoopFrame} {r : Int × Int} {i : Nat}
    (h0 : 0 ≤ r.1) (h : i ∈ loopNear s f r) :
    r.1 ≤ i ∧ (i : Int) < r.2 ∧ f.xy i ≤ s.maxXY ∧ f.z i ≤ s.maxZ := by
  unfold loopNear at h
  obtain ⟨h1, h2⟩ := List.mem_filter.mp h
  rw [List.mem_range'_1] at h1
  simp only [Bool.and_eq_true, decide_eq_true_eq] at h2
  refine ⟨by omega, by omega, h2.1, h2.2⟩

theorem loopNear_nodup (s : LoopSettings) (f : LoopFrame) (r : Int × Int) :
    (loopNear s f r).Nodup := List.Nodup.filter _ (List.nodup_range' ..)

theorem loopRange_spec (s : LoopSettings) (hi : 0 ≤ s.ignore) (w : Option (Int × Int)) (cur : Nat) :
    0 ≤ (loopRange s w cur).1 ∧ (loopRange s w cur).2 ≤ cur := by
  unfold loopRange
  split
  · split
    · dsimp only [clampInt]
      constructor <;> (split <;> (try split) <;> omega)
    · dsimp only; omega
  · dsimp only; omega

theorem loopRange_window {s : LoopSettings} {a b : Int} (ha : 0 ≤ a) (hb : 0 ≤ b) {cur : Nat} {i : Int}
    (h1 : (loopRange s (some (a, b)) cur).1 ≤ i) (h2 : i < (loopRange s (some (a, b)) cur).2) :
    a ≤ i ∧ i < b := by
  simp only [loopRange, if_pos (show b ≥ 0 ∧ a ≥ 0 from ⟨hb, ha⟩), clampInt] at h1 h2
  split at h1 <;> split at h2 <;> (try split at h1) <;> (try split at h2) <;> omega

/-- The candidates of a frame. -/
theorem loopPairs_ok {s : LoopSettings} (hn : 1 ≤ s.num) (hi : 0 ≤ s.ignore)
    (w : Option (Int × Int)) (f : LoopFrame) (cur : Nat) :
    ∃ ps, loopPairs s w f cur = .ok ps ∧ ps.Nodup ∧ (ps.length : Int) ≤ s.num + 1 ∧
      ∀ p ∈ ps, p.2 = cur ∧ p.1 ∈ loopNear s f (loopRange s w cur) ∧
        (s.useDescriptor = true → f.descriptor p.1 > s.score ∨
          loopClosestOk s f (loopNear s f (loopRange s w cur)) = some p.1) := by
  unfold loopPairs
  have hr := loopRange_spec s hi w cur
  have hcur : ¬ (s.useDescriptor = true ∧ cur ∈ loopNear s f (loopRange s w cur)) := by
    rintro ⟨_, h⟩
    have := loopNear_spec hr.1 h
    omega
  simp only [if_neg hcur]
  have hnd := loopNear_nodup s f (loopRange s w cur)
  revert hnd
  generalize hnear : loopNear s f (loopRange s w cur) = near
  intro hnd
  generalize hm : (if s.useDescriptor then near.filter fun i => decide (f.descriptor i > s.score)
    else near) = matched
  have hsub : ∀ v ∈ matched, v ∈ near ∧ (s.useDescriptor = true → f.descriptor v > s.score) := by
    intro v hv
    rw [← hm] at hv
    by_cases hd : s.useDescriptor = true
    · rw [if_pos hd] at hv
      obtain ⟨a, b⟩ := List.mem_filter.mp hv
      exact ⟨a, fun _ => by simpa using b⟩
    · rw [if_neg hd] at hv
      exact ⟨hv, fun h => absurd h hd⟩
  have hmn : matched.Nodup := by
    rw [← hm]
    split
    · exact List.Nodup.filter _ hnd
    · exact hnd
  obtain ⟨vs, e1, e2, e3, e4, e5⟩ := loopSelect_ok hn
    (l := matched.insertionSort (· ≤ ·)) ((List.perm_insertionSort _ _).nodup_iff.mpr hmn)
  have e2' : ∀ v ∈ vs, v ∈ matched := fun v hv => (List.perm_insertionSort _ _).mem_iff.mp (e2 v hv)
  simp only [e1, Outcome.bind_ok, Outcome.pure_eq]
  refine ⟨_, rfl, ?_, ?_, ?_⟩
  · refine List.Nodup.map (fun a b h => (Prod.mk.inj h).1) ?_
    split
    · exact e3
    · unfold loopAddClosest
      split
      · exact e3
      · split
        · exact e3
        · rename_i c _ hc
          rw [List.nodup_append]
          refine ⟨e3, by simp, ?_⟩
          intro a ha b hb
          rw [List.mem_singleton] at hb
          rw [hb]
          rintro rfl
          exact hc ha
  · rw [List.length_map]
    split
    · omega
    · unfold loopAddClosest
      split
      · omega
      · split
        · omega
        · rw [List.length_append, List.length_singleton]; push_cast; omega
  · intro p hp
    obtain ⟨i, hi', rfl⟩ := List.mem_map.mp hp
    refine ⟨rfl, ?_⟩
    dsimp only
    have hsel : i ∈ vs → i ∈ near ∧ (s.useDescriptor = true → f.descriptor i > s.score ∨
        loopClosestOk s f near = some i) := by
      intro hv
      obtain ⟨a, b⟩ := hsub i (e2' i hv)
      exact ⟨a, fun h => Or.inl (b h)⟩
    split at hi'
    · exact hsel hi'
    · unfold loopAddClosest at hi'
      split at hi'
      · exact hsel hi'
      · rename_i c hc
        split at hi'
        · exact hsel hi'
        · rcases List.mem_append.mp hi' with h | h
          · exact hsel h
          · rw [List.mem_singleton] at h
            subst h
            exact ⟨loopClosestOk_mem hc, fun _ => Or.inr hc⟩

/-! ### The state machine -/

theorem loopNext_continuous {n : Int} {st : LoopStatus × Int} {b : Bool}
    (h : (loopNext n st b).1 = .continuous) : b = true := by
  obtain ⟨s, c⟩ := st
  cases s <;> cases b <;> simp [loopNext] at h ⊢
  all_goals (split at h <;> cases h)

/-- What the history says in each state. -/
def LoopInv (n : Int) (h : List Bool) (st : LoopStatus × Int) : Prop :=
  match st.1 with
  | .noLoop => True
  | .leaving => st.2 = 0
  | .trying => ∃ suf, suf <:+ h ∧ NoTwoMisses suf ∧ st.2 ≤ suf.count true
  | .entering => ∃ suf, suf ++ [true] <:+ h ∧ NoTwoMisses (suf ++ [true]) ∧
      n ≤ (suf ++ [true]).count true ∧ st.2 ≤ (suf ++ [true]).count true
  | .continuous => ∃ suf, suf ++ [true, true] <:+ h ∧ NoTwoMisses (suf ++ [true, true]) ∧
      n + 1 ≤ (suf ++ [true, true]).count true

theorem suffix_snoc {α : Type} {a h : List α} (x : α) (hs : a <:+ h) : a ++ [x] <:+ h ++ [x] := by
  obtain ⟨t, rfl⟩ := hs
  exact ⟨t, by simp⟩

theorem noTwo_true {a : List Bool} (h : NoTwoMisses a) : NoTwoMisses (a ++ [true]) := by
  intro hc
  obtain ⟨s, t, e⟩ := hc
  rcases List.eq_nil_or_concat t with rfl | ⟨t', x, rfl⟩
  · have e' : (s ++ [false]) ++ [false] = a ++ [true] := by simpa using e
    have := (List.append_inj' e' rfl).2
    simp at this
  · have e' : (s ++ [false, false] ++ t') ++ [x] = a ++ [true] := by simpa using e
    exact h ⟨s, t', (List.append_inj' e' rfl).1⟩

theorem noTwo_true_false {a : List Bool} (h : NoTwoMisses (a ++ [true])) :
    NoTwoMisses (a ++ [true] ++ [false]) := by
  intro hc
  obtain ⟨s, t, e⟩ := hc
  rcases List.eq_nil_or_concat t with rfl | ⟨t', x, rfl⟩
  · have e' : s ++ [false, false] = a ++ [true, false] := by simpa using e
    have := (List.append_inj' e' rfl).2
    simp at this
  · have e' : (s ++ [false, false] ++ t') ++ [x] = (a ++ [true]) ++ [false] := by simpa using e
    exact h ⟨s, t', (List.append_inj' e' rfl).1⟩

theorem noTwo_single : NoTwoMisses ([] ++ [true]) := by
  refine noTwo_true ?_
  intro h
  have := h.length_le
  simp at this

theorem loopInv_step {n : Int} {h : List Bool} {st : LoopStatus × Int} (b : Bool)
    (hi : LoopInv n h st) : LoopInv n (h ++ [b]) (loopNext n st b) := by
  obtain ⟨s, c⟩ := st
  cases s with
  | noLoop =>
    cases b with
    | false => trivial
    | true =>
      simp only [loopNext, if_true]
      by_cases hc : 1 ≥ n
      · rw [if_pos hc]
        exact ⟨[], ⟨h, rfl⟩, noTwo_single, by simpa using hc, by simp⟩
      · rw [if_neg hc]
        exact ⟨[] ++ [true], ⟨h, rfl⟩, noTwo_single, by simp⟩
  | trying =>
    obtain ⟨suf, h1, h2, h3⟩ := hi
    have h3 : c ≤ suf.count true := h3
    cases b with
    | false => trivial
    | true =>
      simp only [loopNext, if_true]
      by_cases hc : c + 1 ≥ n
      · rw [if_pos hc]
        refine ⟨suf, suffix_snoc _ h1, noTwo_true h2, ?_, ?_⟩ <;>
        · rw [List.count_append]
          simp
          omega
      · rw [if_neg hc]
        refine ⟨suf ++ [true], suffix_snoc _ h1, noTwo_true h2, ?_⟩
        rw [List.count_append]
        simp
        omega
  | entering =>
    obtain ⟨suf, h1, h2, h3, h4⟩ := hi
    have h4 : c ≤ (suf ++ [true]).count true := h4
    cases b with
    | false =>
      refine ⟨suf ++ [true] ++ [false], suffix_snoc _ h1, noTwo_true_false h2, ?_⟩
      rw [List.count_append]
      show c ≤ _
      push_cast
      omega
    | true =>
      have e : suf ++ [true, true] = suf ++ [true] ++ [true] := by simp
      refine ⟨suf, ?_, ?_, ?_⟩
      · rw [e]; exact suffix_snoc _ h1
      · rw [e]; exact noTwo_true h2
      · rw [e, List.count_append]
        simp only [List.count_singleton_self]
        push_cast
        omega
  | continuous =>
    obtain ⟨suf, h1, h2, h3⟩ := hi
    cases b with
    | false => rfl
    | true =>
      have e : (suf ++ [true]) ++ [true, true] = suf ++ [true, true] ++ [true] := by simp
      refine ⟨suf ++ [true], ?_, ?_, ?_⟩
      · rw [e]; exact suffix_snoc _ h1
      · rw [e]; exact noTwo_true h2
      · rw [e, List.count_append]
        push_cast
        omega
  | leaving =>
    have hi : c = 0 := hi
    cases b with
    | false => trivial
    | true =>
      exact ⟨[] ++ [true], ⟨h, rfl⟩, noTwo_single, by rw [hi]; show (0 : Int) ≤ _; omega⟩

end Verif
