import Verif.Spec.GpuKnn
import Verif.Proofs.Outcome
import Mathlib.Tactic.Linarith
import Mathlib.Tactic.FinCases
import Mathlib.Data.List.Range
/-!
C115.  The neighbour search on the graphics card: for every query point it gives the eight nearest
reference points with their squared distances, whatever order the threads copy the answers in.

Not so in the code: the points are put into the order of the tree, and the indices that are returned
are places in that order, not in the array handed in (`C115_index_fails`).  Read through the order of
the tree they are right (`C115_nearest_partial`).
-/
namespace Verif
open Spec

theorem gpuPoint_ok (a : List Rat) (i : Nat) (h : 3 * i + 3 ≤ a.length) :
    gpuPoint a i = .ok (arrayPoint a i) := by
  have e : ∀ k, k < a.length → arrayAt a k = .ok (a.getD k 0) := by
    intro k hk
    simp [arrayAt, List.getElem?_eq_getElem hk, List.getD_eq_getElem?_getD]
  unfold gpuPoint arrayPoint
  rw [e _ (by omega), Outcome.bind_ok, e _ (by omega), Outcome.bind_ok, e _ (by omega), Outcome.bind_ok,
    Nat.mul_comm i 3]
  rfl

theorem gpuPoints_ok (a : List Rat) : ∀ n i : Nat, 3 * (i + n) ≤ a.length →
    gpuPoints a i n = .ok ((List.range' i n).map (arrayPoint a)) := by
  intro n
  induction n with
  | zero => intro i _; rfl
  | succ n ih =>
    intro i h
    rw [gpuPoints, gpuPoint_ok a i (by omega), Outcome.bind_ok, ih (i + 1) (by omega), Outcome.bind_ok]
    rfl

/-- Reading is defined exactly if the array is long enough. -/
theorem gpuPoints_ub (a : List Rat) (n : Nat) (h : a.length < 3 * n) : gpuPoints a 0 n = .ub := by
  have key : ∀ n i : Nat, 3 * i ≤ a.length → a.length < 3 * (i + n) → gpuPoints a i n = .ub := by
    intro n
    induction n with
    | zero => intro i h1 h2; omega
    | succ n ih =>
      intro i h1 h2
      rw [gpuPoints]
      by_cases h3 : 3 * i + 3 ≤ a.length
      · rw [gpuPoint_ok a i h3, Outcome.bind_ok, ih (i + 1) (by omega) (by omega), Outcome.bind_ub]
      · have : gpuPoint a i = .ub := by
          unfold gpuPoint
          have e : ∀ k, arrayAt a k = if k < a.length then .ok (a.getD k 0) else .ub := by
            intro k
            by_cases hk : k < a.length
            · simp [arrayAt, hk, List.getD_eq_getElem?_getD]
            · simp [arrayAt, hk]
          rw [e, e, e, if_neg (show ¬ i * 3 + 2 < a.length by omega)]
          by_cases h4 : i * 3 < a.length
          · rw [if_pos h4, Outcome.bind_ok]
            by_cases h5 : i * 3 + 1 < a.length
            · rw [if_pos h5, Outcome.bind_ok, Outcome.bind_ub]
            · rw [if_neg h5, Outcome.bind_ub]
          · rw [if_neg h4, Outcome.bind_ub]
        rw [this, Outcome.bind_ub]
  exact key n 0 (by omega) (by omega)

/-- The box holds every point, wherever the points are; and each side is that of some point or the
million it starts with. -/
theorem C115_box (ps : List GpuPoint) :
    (∀ p ∈ ps, ∀ i, (gpuBox ps).lo i ≤ p i ∧ p i ≤ (gpuBox ps).hi i) ∧
    (∀ i, (∃ p ∈ ps, p i ≤ 1000000) → ∃ p ∈ ps, (gpuBox ps).lo i = p i) ∧
    (∀ i, (∃ p ∈ ps, -1000000 ≤ p i) → ∃ p ∈ ps, (gpuBox ps).hi i = p i) := by
  have key : ∀ (l : List GpuPoint) (b : GpuBox),
      (∀ i, (l.foldl GpuBox.grow b).lo i ≤ b.lo i ∧ b.hi i ≤ (l.foldl GpuBox.grow b).hi i) ∧
      (∀ p ∈ l, ∀ i, (l.foldl GpuBox.grow b).lo i ≤ p i ∧ p i ≤ (l.foldl GpuBox.grow b).hi i) ∧
      (∀ i, (l.foldl GpuBox.grow b).lo i = b.lo i ∨ ∃ p ∈ l, (l.foldl GpuBox.grow b).lo i = p i) ∧
      (∀ i, (l.foldl GpuBox.grow b).hi i = b.hi i ∨ ∃ p ∈ l, (l.foldl GpuBox.grow b).hi i = p i) := by
    intro l
    induction l with
    | nil => intro b; exact ⟨fun i => ⟨le_refl _, le_refl _⟩, by simp, fun i => .inl rfl, fun i => .inl rfl⟩
    | cons p r ih =>
      intro b
      obtain ⟨h1, h2, h3, h4⟩ := ih (b.grow p)
      have g1 : ∀ i, (b.grow p).lo i ≤ b.lo i ∧ (b.grow p).lo i ≤ p i := by
        intro i
        simp only [GpuBox.grow]
        split
        · rename_i h; exact ⟨h.le, le_refl _⟩
        · rename_i h; exact ⟨le_refl _, not_lt.1 h⟩
      have g2 : ∀ i, b.hi i ≤ (b.grow p).hi i ∧ p i ≤ (b.grow p).hi i := by
        intro i
        simp only [GpuBox.grow]
        split
        · rename_i h; exact ⟨h.le, le_refl _⟩
        · rename_i h; exact ⟨le_refl _, not_lt.1 h⟩
      have g3 : ∀ i, (b.grow p).lo i = b.lo i ∨ (b.grow p).lo i = p i := by
        intro i
        simp only [GpuBox.grow]
        split
        · exact .inr rfl
        · exact .inl rfl
      have g4 : ∀ i, (b.grow p).hi i = b.hi i ∨ (b.grow p).hi i = p i := by
        intro i
        simp only [GpuBox.grow]
        split
        · exact .inr rfl
        · exact .inl rfl
      simp only [List.foldl_cons]
      refine ⟨fun i => ⟨(h1 i).1.trans (g1 i).1, (g2 i).1.trans (h1 i).2⟩, ?_, ?_, ?_⟩
      · intro q hq i
        rcases List.mem_cons.1 hq with rfl | hq
        · exact ⟨(h1 i).1.trans (g1 i).2, (g2 i).2.trans (h1 i).2⟩
        · exact h2 q hq i
      · intro i
        rcases h3 i with h | ⟨q, hq, h⟩
        · rcases g3 i with g | g
          · exact .inl (h.trans g)
          · exact .inr ⟨p, by simp, h.trans g⟩
        · exact .inr ⟨q, by simp [hq], h⟩
      · intro i
        rcases h4 i with h | ⟨q, hq, h⟩
        · rcases g4 i with g | g
          · exact .inl (h.trans g)
          · exact .inr ⟨p, by simp, h.trans g⟩
        · exact .inr ⟨q, by simp [hq], h⟩
  obtain ⟨-, h2, h3, h4⟩ := key ps ⟨fun _ => 1000000, fun _ => -1000000⟩
  refine ⟨h2, ?_, ?_⟩
  · rintro i ⟨p, hp, hle⟩
    rcases h3 i with h | h
    · refine ⟨p, hp, le_antisymm (h2 p hp i).1 ?_⟩
      show p i ≤ (ps.foldl GpuBox.grow _).lo i
      rw [h]; exact hle
    · exact h
  · rintro i ⟨p, hp, hle⟩
    rcases h4 i with h | h
    · refine ⟨p, hp, le_antisymm ?_ (h2 p hp i).2⟩
      show (ps.foldl GpuBox.grow _).hi i ≤ p i
      rw [h]; exact hle
    · exact h

theorem gatherPoints_ok (ps : List GpuPoint) (ks : List Nat) (h : ∀ k ∈ ks, k < ps.length) :
    gatherPoints ps ks = .ok (ks.map fun k => ps.getD k 0) := by
  induction ks with
  | nil => rfl
  | cons k r ih =>
    have hk := h k (by simp)
    rw [gatherPoints, List.getElem?_eq_getElem hk]
    simp only [Outcome.bind_ok]
    rw [ih fun x hx => h x (by simp [hx]), Outcome.bind_ok]
    simp [List.getD_eq_getElem?_getD, hk]

theorem knnSlot_inj {i j i' j' : Nat} (h : i < 8) (h' : i' < 8) (e : knnSlot i j = knnSlot i' j') :
    i = i' ∧ j = j' := by
  unfold knnSlot at e; omega

/-- Copying: every slot gets its result, in whatever order, and nothing else changes. -/
theorem copyResults_ok (results : List (Rat × Nat)) : ∀ (order : List (Nat × Nat))
    (out : List (Rat × Nat)), (∀ p ∈ order, p.1 < 8 ∧ knnSlot p.1 p.2 < results.length ∧
      knnSlot p.1 p.2 < out.length) →
    ∃ o, copyResults results order out = .ok o ∧ o.length = out.length ∧
      (∀ p ∈ order, o[knnSlot p.1 p.2]? = results[knnSlot p.1 p.2]?) ∧
      ∀ k : Nat, (∀ p ∈ order, k ≠ knnSlot p.1 p.2) → o[k]? = out[k]? := by
  intro order
  induction order with
  | nil => intro out _; exact ⟨out, rfl, rfl, by simp, fun _ _ => rfl⟩
  | cons p r ih =>
    intro out h
    obtain ⟨h0, h1, h2⟩ := h p (by simp)
    obtain ⟨o, e1, e2, e3, e4⟩ := ih (out.set (knnSlot p.1 p.2) results[knnSlot p.1 p.2]) (by
      intro q hq
      rw [List.length_set]
      exact h q (by simp [hq]))
    refine ⟨o, ?_, by rw [e2, List.length_set], ?_, ?_⟩
    · rw [copyResults, List.getElem?_eq_getElem h1]
      simp only [if_pos h2]
      exact e1
    · intro q hq
      by_cases hm : q ∈ r
      · exact e3 q hm
      · have hqp : q = p := by
          rcases List.mem_cons.1 hq with h | h
          · exact h
          · exact absurd h hm
        subst hqp
        by_cases hs : ∃ q' ∈ r, knnSlot q.1 q.2 = knnSlot q'.1 q'.2
        · obtain ⟨q', hq', hs⟩ := hs
          rw [hs]; exact e3 q' hq'
        · rw [e4 _ (by push Not at hs; exact hs), List.getElem?_set_self h2, List.getElem?_eq_getElem h1]
    · intro k hk
      rw [e4 k fun q hq => hk q (by simp [hq]), List.getElem?_set_ne (Ne.symm (hk p (by simp)))]

theorem flat_slot {α β : Type} (f : α → List β) (hf : ∀ a, (f a).length = 8) : ∀ (l : List α) (j i : Nat),
    (hj : j < l.length) → i < 8 → (l.flatMap f)[j * 8 + i]? = (f l[j])[i]? := by
  intro l
  induction l with
  | nil => intro j i hj; simp at hj
  | cons a r ih =>
    intro j i hj hi
    rw [List.flatMap_cons]
    cases j with
    | zero => rw [List.getElem?_append_left (by rw [hf]; omega)]; simp
    | succ j =>
      rw [List.getElem?_append_right (by rw [hf]; omega), hf,
        show (j + 1) * 8 + i - 8 = j * 8 + i by omega, ih j i (by simpa using hj) hi]
      rfl

/-- What the search gives for the points in tree order. -/
def TreeOrder (n : Nat) (perm : List Nat) : Prop := perm.Perm (List.range n)

/-- The answers, whatever order the threads copy them in: slot `8 j + i` holds the `i`-th neighbour of
query `j`, and the call reads and writes nothing outside its arrays. -/
theorem C115_slots (build : GpuBox → List GpuPoint → List Nat)
    (search : List GpuPoint → GpuPoint → List (Rat × Nat)) (hs : ∀ l q, (search l q).length = 8)
    (order : List (Nat × Nat)) (ref query : List Rat) (n m : Nat) (out : List (Rat × Nat))
    (ho : AllPairs m order) (hr : 3 * n ≤ ref.length) (hq : 3 * m ≤ query.length)
    (hout : 8 * m ≤ out.length)
    (hb : TreeOrder n (build (gpuBox ((List.range n).map (arrayPoint ref))) ((List.range n).map (arrayPoint ref)))) :
    ∃ o, gpuKnn build search order ref n query m (some out) = .ok (some o) ∧ o.length = out.length ∧
      (∀ i j : Nat, i < 8 → j < m → o[8 * j + i]? = (search
        ((build (gpuBox ((List.range n).map (arrayPoint ref))) ((List.range n).map (arrayPoint ref))).map
          (arrayPoint ref)) (arrayPoint query j))[i]?) ∧
      ∀ k : Nat, 8 * m ≤ k → o[k]? = out[k]? := by
  set ps := (List.range n).map (arrayPoint ref) with hps
  set perm := build (gpuBox ps) ps with hperm
  have hlen : perm.length = n := by rw [hb.length_eq, List.length_range]
  have hlt : ∀ k ∈ perm, k < n := fun k hk => List.mem_range.1 (hb.mem_iff.1 hk)
  have hsorted : perm.map (fun k => ps.getD k 0) = perm.map (arrayPoint ref) := by
    apply List.map_congr_left
    intro k hk
    have := hlt k hk
    simp [hps, List.getD_eq_getElem?_getD, this]
  set sorted := perm.map (arrayPoint ref) with hso
  set qs := (List.range m).map (arrayPoint query) with hqs
  have hqsl : qs.length = m := by simp [hqs]
  have hfl : (qs.flatMap (search sorted)).length = 8 * m := by
    rw [List.length_flatMap, ← hqsl]
    have : ∀ l : List GpuPoint, (l.map fun a => (search sorted a).length).sum = 8 * l.length := by
      intro l
      induction l with
      | nil => rfl
      | cons a r ih => rw [List.map_cons, List.sum_cons, ih, hs, List.length_cons]; omega
    exact this qs
  obtain ⟨o, e1, e2, e3, e4⟩ := copyResults_ok (qs.flatMap (search sorted)) order out (by
    intro p hp
    obtain ⟨h1, h2⟩ := (ho.2 p.1 p.2).1 hp
    refine ⟨h1, ?_, ?_⟩
    · rw [hfl]; unfold knnSlot; omega
    · unfold knnSlot; omega)
  refine ⟨o, ?_, e2, ?_, ?_⟩
  · unfold gpuKnn
    rw [gpuPoints_ok ref n 0 (by omega), ← List.range_eq_range', Outcome.bind_ok,
      gpuPoints_ok query m 0 (by omega), ← List.range_eq_range', Outcome.bind_ok, ← hps, ← hperm,
      List.take_of_length_le (by omega), gatherPoints_ok ps perm (by
        intro k hk; rw [hps, List.length_map, List.length_range]; exact hlt k hk), Outcome.bind_ok, hsorted]
    simp only [← hqs, e1, Outcome.bind_ok]
    rfl
  · intro i j hi hj
    have := e3 (i, j) ((ho.2 i j).2 ⟨hi, hj⟩)
    simp only [knnSlot] at this
    rw [Nat.mul_comm 8 j, this, flat_slot _ (hs sorted) qs j i (by omega) hi]
    simp [hqs]
  · intro k hk
    refine e4 k ?_
    intro p hp h
    obtain ⟨h1, h2⟩ := (ho.2 p.1 p.2).1 hp
    unfold knnSlot at h
    omega

/-- An array of reference or query points that is too short is read past its end. -/
theorem C115_short (build : GpuBox → List GpuPoint → List Nat)
    (search : List GpuPoint → GpuPoint → List (Rat × Nat)) (order : List (Nat × Nat))
    (ref query : List Rat) (n m : Nat) (out : Option (List (Rat × Nat)))
    (h : ref.length < 3 * n ∨ query.length < 3 * m) :
    gpuKnn build search order ref n query m out = .ub := by
  unfold gpuKnn
  by_cases h1 : ref.length < 3 * n
  · rw [gpuPoints_ub ref n h1, Outcome.bind_ub]
  · rw [gpuPoints_ok ref n 0 (by omega), Outcome.bind_ok, gpuPoints_ub query m (by omega), Outcome.bind_ub]

/-- With null pointers nothing is written. -/
theorem C115_null (build : GpuBox → List GpuPoint → List Nat)
    (search : List GpuPoint → GpuPoint → List (Rat × Nat)) (order : List (Nat × Nat))
    (ref query : List Rat) (n m : Nat) (hr : 3 * n ≤ ref.length) (hq : 3 * m ≤ query.length)
    (hb : TreeOrder n (build (gpuBox ((List.range n).map (arrayPoint ref))) ((List.range n).map (arrayPoint ref)))) :
    gpuKnn build search order ref n query m none = .ok none := by
  unfold gpuKnn
  rw [gpuPoints_ok ref n 0 (by omega), ← List.range_eq_range', Outcome.bind_ok,
    gpuPoints_ok query m 0 (by omega), ← List.range_eq_range', Outcome.bind_ok, gatherPoints_ok]
  · rw [Outcome.bind_ok]
  · intro k hk
    rw [List.length_map, List.length_range]
    exact List.mem_range.1 (hb.mem_iff.1 (List.mem_of_mem_take hk))

/-- The neighbours, read through the order of the tree: if the search finds the eight nearest of the
points in tree order with their distances, then the indices returned for query `j`, looked up in that
order, are the eight nearest reference points, with the right distances.
Missing: the indices themselves (`C115_index_fails`). -/
theorem C115_nearest_partial (n : Nat) (perm : List Nat) (hp : TreeOrder n perm)
    (ref : List Rat) (q : GpuPoint) (found : List (Rat × Nat))
    (hk : EightNearest n (fun k => arrayPoint ref (perm.getD k 0)) q (found.map (·.2)))
    (hd : ∀ r ∈ found, r.1 = distSq (arrayPoint ref (perm.getD r.2 0)) q) :
    EightNearest n (arrayPoint ref) q (found.map fun r => perm.getD r.2 0) ∧
    ∀ r ∈ found, r.1 = distSq (arrayPoint ref (perm.getD r.2 0)) q := by
  refine ⟨?_, hd⟩
  obtain ⟨h1, h2, h3, h4⟩ := hk
  have hlen : perm.length = n := by rw [hp.length_eq, List.length_range]
  have hnd : perm.Nodup := hp.nodup_iff.2 List.nodup_range
  have get : ∀ k, (h : k < n) → perm.getD k 0 = perm[k] := by
    intro k h
    rw [List.getD_eq_getElem?_getD, List.getElem?_eq_getElem, Option.getD_some]
  have inj : ∀ a < n, ∀ b < n, perm.getD a 0 = perm.getD b 0 → a = b := by
    intro a ha b hb h
    rw [get a ha, get b hb] at h
    exact (List.Nodup.getElem_inj_iff hnd).1 h
  have e : (found.map fun r => perm.getD r.2 0) = (found.map (·.2)).map fun k => perm.getD k 0 := by
    rw [List.map_map]; rfl
  rw [e]
  refine ⟨by rw [List.length_map]; exact h1, ?_, ?_, ?_⟩
  · exact List.Nodup.map_on (fun a ha b hb h => inj a (h3 a ha) b (h3 b hb) h) h2
  · intro k hk
    obtain ⟨a, ha, rfl⟩ := List.mem_map.1 hk
    rw [get a (h3 a ha)]
    exact List.mem_range.1 (hp.mem_iff.1 (List.getElem_mem _))
  · intro k hk l hl hnl
    obtain ⟨a, ha, rfl⟩ := List.mem_map.1 hk
    have hm : l ∈ perm := hp.mem_iff.2 (List.mem_range.2 hl)
    obtain ⟨b, hb, rfl⟩ := List.getElem_of_mem hm
    have hb' : b < n := by omega
    have := h4 a ha b hb' (by
      intro hc
      exact hnl (List.mem_map.2 ⟨b, hc, get b hb'⟩))
    dsimp only at this
    rw [get b hb'] at this
    exact this

/-- Nine points along a line. -/
def ninePoints : List Rat := [0,0,0, 1,0,0, 2,0,0, 3,0,0, 4,0,0, 5,0,0, 6,0,0, 7,0,0, 8,0,0]

/-- A tree that holds the points in reverse order. -/
def reversedTree : GpuBox → List GpuPoint → List Nat := fun _ ps => (List.range ps.length).reverse

/-- The right answer for a query at the origin in that order. -/
def originSearch : List GpuPoint → GpuPoint → List (Rat × Nat) := fun _ _ =>
  [(0, 8), (1, 7), (4, 6), (9, 5), (16, 4), (25, 3), (36, 2), (49, 1)]

/-- The tree and the search are right, and the indices returned are not those of the nearest points:
the first one is that of the farthest point, given with distance 0, and the nearest point is not among
them. -/
theorem C115_index_fails : TreeOrder 9 (reversedTree ⟨0, 0⟩ ((List.range 9).map (arrayPoint ninePoints))) ∧
    EightNearest 9 (fun k => arrayPoint ninePoints ((List.range 9).reverse.getD k 0)) (arrayPoint [0, 0, 0] 0)
      ((originSearch [] 0).map (·.2)) ∧
    (∀ r ∈ originSearch [] 0,
      r.1 = distSq (arrayPoint ninePoints ((List.range 9).reverse.getD r.2 0)) (arrayPoint [0, 0, 0] 0)) ∧
    ∃ o, gpuKnn reversedTree originSearch [(0,0),(1,0),(2,0),(3,0),(4,0),(5,0),(6,0),(7,0)] ninePoints 9
        [0, 0, 0] 1 (some (List.replicate 8 (0, 0))) = .ok (some o) ∧
      o[0]? = some (0, 8) ∧ distSq (arrayPoint ninePoints 8) (arrayPoint [0, 0, 0] 0) = 64 ∧
      ¬ EightNearest 9 (arrayPoint ninePoints) (arrayPoint [0, 0, 0] 0) (o.map (·.2)) := by
  refine ⟨List.reverse_perm _, ?_, by decide +kernel, _, rfl, rfl, by decide +kernel, ?_⟩
  · refine ⟨rfl, by decide, by decide, ?_⟩
    decide +kernel
  · rintro ⟨-, -, -, h⟩
    have := h 8 (by decide) 0 (by decide) (by decide)
    revert this
    decide +kernel

/-- The order of the threads in the witness meets `AllPairs`. -/
example : AllPairs 1 [(3,0),(1,0),(2,0),(0,0),(4,0),(5,0),(7,0),(6,0)] := by
  refine ⟨by decide, ?_⟩
  intro i j
  simp only [List.mem_cons, Prod.mk.injEq, List.not_mem_nil, or_false]
  omega

/-- The hypotheses of `C115_slots` and `C115_null` can be met together. -/
example : ∃ o, gpuKnn reversedTree originSearch [(3,0),(1,0),(2,0),(0,0),(4,0),(5,0),(7,0),(6,0)] ninePoints 9
      [0, 0, 0] 1 (some (List.replicate 9 (7, 7))) = .ok (some o) ∧ o[3]? = some (9, 5) ∧
    o[8]? = some (7, 7) := by
  obtain ⟨o, h1, -, h3, h4⟩ := C115_slots reversedTree originSearch (fun _ _ => rfl)
    [(3,0),(1,0),(2,0),(0,0),(4,0),(5,0),(7,0),(6,0)] ninePoints [0, 0, 0] 9 1 (List.replicate 9 (7, 7))
    ⟨by decide, by
      intro i j
      simp only [List.mem_cons, Prod.mk.injEq, List.not_mem_nil, or_false]
      omega⟩ (by decide) (by decide) (by decide) (List.reverse_perm _)
  exact ⟨o, h1, h3 3 0 (by decide) (by decide), h4 8 (by decide)⟩

/-- A tree that keeps the order of the points gives the right indices. -/
theorem C115_index_partial (n : Nat) (ref : List Rat) (q : GpuPoint) (found : List (Rat × Nat))
    (hk : EightNearest n (fun k => arrayPoint ref ((List.range n).getD k 0)) q (found.map (·.2))) :
    EightNearest n (arrayPoint ref) q (found.map (·.2)) := by
  obtain ⟨h1, h2, h3, h4⟩ := hk
  have e : ∀ k < n, (List.range n).getD k 0 = k := by
    intro k h
    simp [List.getD_eq_getElem?_getD, h]
  refine ⟨h1, h2, h3, ?_⟩
  intro k hk l hl hn
  have := h4 k hk l hl hn
  simp only [e k (h3 k hk), e l hl] at this
  exact this

end Verif
