import Verif.Spec.CellHash
import Verif.Proofs.Filters
import Mathlib.Data.List.Induction
import Mathlib.Combinatorics.Pigeonhole
import Mathlib.Data.Finset.Prod
import Mathlib.Order.Interval.Finset.Nat
import Mathlib.Tactic.Linarith

/-!
# C120: tables of cells
-/

namespace Verif
open Verif.Spec

/-- Every entry is in the bucket of its key. -/
def Sorted1 {α : Type} (t : CellTable α) : Prop :=
  ∀ i b, t[i]? = some b → (∀ e ∈ b, bucketOf t.length e.1 = i) ∧ (b.map Prod.fst).Nodup

theorem cellFind_push {α : Type} (k k' : CellKey) (x : α) (b : List (CellKey × List α)) :
    cellFind k (cellPush k' x b) =
      if k' = k then some ((cellFind k b).getD [] ++ [x]) else cellFind k b := by
  induction b with
  | nil =>
    unfold cellPush cellFind cellFind
    rfl
  | cons e r ih =>
    unfold cellPush
    by_cases h : e.1 = k'
    · rw [if_pos h, cellFind, cellFind]
      by_cases hk : k' = k
      · rw [if_pos (h.trans hk), if_pos hk, if_pos (h.trans hk)]
        rfl
      · rw [if_neg (fun c => hk (h.symm.trans c)), if_neg hk, if_neg (fun c => hk (h.symm.trans c))]
    · rw [if_neg h, cellFind, cellFind, ih]
      by_cases hk : e.1 = k
      · rw [if_pos hk, if_pos hk, if_neg (fun c => h (hk.trans c.symm))]
      · rw [if_neg hk, if_neg hk]

theorem cellPush_keys {α : Type} (k : CellKey) (x : α) (b : List (CellKey × List α)) :
    (cellPush k x b).map Prod.fst = if k ∈ b.map Prod.fst then b.map Prod.fst else b.map Prod.fst ++ [k] := by
  induction b with
  | nil => rfl
  | cons e r ih =>
    unfold cellPush
    by_cases h : e.1 = k
    · rw [if_pos h, if_pos (by simp [h])]
      rfl
    · rw [if_neg h, List.map_cons, ih]
      by_cases hm : k ∈ r.map Prod.fst
      · rw [if_pos hm, if_pos (by rw [List.map_cons]; exact List.mem_cons_of_mem _ hm), List.map_cons]
      · rw [if_neg hm, if_neg (by
          rw [List.map_cons, List.mem_cons, not_or]
          exact ⟨fun c => h c.symm, hm⟩), List.map_cons]
        rfl

theorem cellFind_none {α : Type} (k : CellKey) (b : List (CellKey × List α)) :
    cellFind k b = none ↔ k ∉ b.map Prod.fst := by
  induction b with
  | nil => exact ⟨fun _ h => (by cases h), fun _ => rfl⟩
  | cons e r ih =>
    rw [cellFind, List.map_cons, List.mem_cons, not_or]
    by_cases h : e.1 = k
    · rw [if_pos h]
      exact ⟨fun c => (by cases c), fun c => absurd h.symm c.1⟩
    · rw [if_neg h, ih]
      exact ⟨fun c => ⟨fun c' => h c'.symm, c⟩, fun c => c.2⟩

/-- Lookup in a table that has grown. -/
theorem find_place {α : Type} (es : List (CellKey × List α)) : ∀ (t : CellTable α), 0 < t.length → Sorted1 t →
    (es.map Prod.fst).Nodup → (∀ e ∈ es, t.find e.1 = none) →
    Sorted1 (es.foldl CellTable.place t) ∧ (es.foldl CellTable.place t).length = t.length ∧
    ∀ k, (es.foldl CellTable.place t).find k = match cellFind k es with | some v => some v | none => t.find k := by
  induction es with
  | nil => intro t _ h _ _; exact ⟨h, rfl, fun k => rfl⟩
  | cons e es ih =>
    intro t ht hs hn hf
    have hidx : ∀ k, bucketOf t.length k < t.length := fun k => Nat.mod_lt _ ht
    have hlen : (t.place e).length = t.length := by unfold CellTable.place; rw [List.length_modify]
    have hget : ∀ i, (t.place e)[i]? = if bucketOf t.length e.1 = i then (fun b => e :: b) <$> t[i]? else t[i]? := by
      intro i
      unfold CellTable.place
      rw [List.getElem?_modify]
      split <;> simp_all
    have hfind : ∀ k, (t.place e).find k = if e.1 = k then some e.2 else t.find k := by
      intro k
      unfold CellTable.find
      rw [hlen, hget]
      obtain ⟨b, hb⟩ : ∃ b, t[bucketOf t.length k]? = some b := ⟨_, List.getElem?_eq_getElem (hidx k)⟩
      by_cases hk : e.1 = k
      · rw [if_pos hk, if_pos (by rw [hk]), hb]
        show cellFind k (e :: b) = _
        rw [cellFind, if_pos hk]
      · rw [if_neg hk]
        by_cases hi : bucketOf t.length e.1 = bucketOf t.length k
        · rw [if_pos hi, hb]
          show cellFind k (e :: b) = _
          rw [cellFind, if_neg hk]
        · rw [if_neg hi]
    have hs' : Sorted1 (t.place e) := by
      intro i b hb
      rw [hget] at hb
      rw [hlen]
      by_cases hi : bucketOf t.length e.1 = i
      · rw [if_pos hi] at hb
        cases hti : t[i]? with
        | none => rw [hti] at hb; cases hb
        | some b' =>
          rw [hti] at hb
          have hb' : e :: b' = b := Option.some.inj hb
          subst hb'
          obtain ⟨h1, h2⟩ := hs i b' hti
          refine ⟨fun x hx => ?_, ?_⟩
          · rcases List.mem_cons.1 hx with rfl | hx
            · exact hi
            · exact h1 x hx
          · rw [List.map_cons, List.nodup_cons]
            refine ⟨?_, h2⟩
            have h3 := hf e (by simp)
            unfold CellTable.find at h3
            rw [hi, hti] at h3
            exact (cellFind_none _ _).1 h3
      · rw [if_neg hi] at hb
        exact hs i b hb
    rw [List.map_cons, List.nodup_cons] at hn
    obtain ⟨r1, r2, r3⟩ := ih (t.place e) (by rw [hlen]; exact ht) hs' hn.2 (by
      intro x hx
      rw [hfind, if_neg (fun c => hn.1 (by rw [c]; exact List.mem_map_of_mem hx))]
      exact hf x (by simp [hx]))
    refine ⟨r1, r2.trans hlen, fun k => ?_⟩
    rw [List.foldl_cons, r3 k, hfind, cellFind]
    by_cases hk : e.1 = k
    · have : cellFind k es = none := (cellFind_none k es).2 (by rw [← hk]; exact hn.1)
      rw [this, if_pos hk, if_pos hk]
    · rw [if_neg hk, if_neg hk]

/-- The keys of a table are different. -/
theorem entries_nodup {α : Type} (t : CellTable α) (h : Sorted1 t) : (t.entries.map Prod.fst).Nodup := by
  unfold CellTable.entries
  rw [List.map_flatten, List.nodup_flatten]
  constructor
  · intro l hl
    obtain ⟨b, hb, rfl⟩ := List.mem_map.1 hl
    obtain ⟨i, hi⟩ := List.mem_iff_getElem?.1 hb
    exact (h i b hi).2
  · rw [List.pairwise_iff_getElem]
    intro i j hi hj hij
    rw [List.length_map] at hi hj
    intro k hk hk'
    rw [List.getElem_map] at hk hk'
    obtain ⟨e, he, rfl⟩ := List.mem_map.1 hk
    obtain ⟨e', he', hee⟩ := List.mem_map.1 hk'
    have h1 := (h i _ (List.getElem?_eq_getElem hi)).1 e he
    have h2 := (h j _ (List.getElem?_eq_getElem hj)).1 e' he'
    rw [hee] at h2
    omega

/-- A table looks up what a loop over it would meet. -/
theorem find_entries {α : Type} (t : CellTable α) (ht : 0 < t.length) (h : Sorted1 t) (k : CellKey) :
    cellFind k t.entries = t.find k := by
  have key : ∀ (l : List (List (CellKey × List α))) (b : List (CellKey × List α)),
      (∀ c ∈ l, cellFind k c = cellFind k b ∨ cellFind k c = none) → (cellFind k b ≠ none → b ∈ l) →
      cellFind k l.flatten = cellFind k b := by
    have happ : ∀ a c : List (CellKey × List α), cellFind k (a ++ c) =
        match cellFind k a with | some v => some v | none => cellFind k c := by
      intro a c
      induction a with
      | nil => rfl
      | cons e a ih =>
        rw [List.cons_append, cellFind, cellFind]
        by_cases he : e.1 = k
        · rw [if_pos he, if_pos he]
        · rw [if_neg he, if_neg he, ih]
    intro l b
    induction l with
    | nil =>
      intro _ h2
      by_contra hc
      exact absurd (h2 (fun e => hc (by rw [e]; rfl))) (by simp)
    | cons c l ih =>
      intro h1 h2
      rw [List.flatten_cons, happ]
      rcases h1 c (by simp) with hc | hc
      · cases hb : cellFind k b with
        | none =>
          rw [hc, hb]
          dsimp only
          rw [ih (fun x hx => h1 x (by simp [hx])) (fun hne => absurd hb hne), hb]
        | some v => rw [hc, hb]
      · rw [hc]
        dsimp only
        refine ih (fun x hx => h1 x (by simp [hx])) (fun hne => ?_)
        rcases List.mem_cons.1 (h2 hne) with rfl | hm
        · exact absurd hc hne
        · exact hm
  have hi : bucketOf t.length k < t.length := Nat.mod_lt _ ht
  have hb := List.getElem?_eq_getElem hi
  unfold CellTable.find
  rw [hb]
  refine key t _ ?_ (fun _ => List.getElem_mem hi)
  intro c hc
  obtain ⟨j, hj⟩ := List.mem_iff_getElem?.1 hc
  by_cases hjk : j = bucketOf t.length k
  · subst hjk
    rw [hb] at hj
    exact Or.inl (by rw [Option.some.inj hj])
  · right
    rw [cellFind_none]
    intro hm
    obtain ⟨e, he, rfl⟩ := List.mem_map.1 hm
    exact hjk ((h j c hj).1 e he).symm

/-- What a table holds after a list of operations. -/
theorem run_find {α : Type} (ops : List (TableOp α)) (hg : GrowsOnly ops) :
    0 < (CellTable.run ops).length ∧ Sorted1 (CellTable.run ops) ∧
    ∀ k, (CellTable.run ops).find k = if putUnder ops k = [] then none else some (putUnder ops k) := by
  induction ops using List.reverseRecOn with
  | nil =>
    refine ⟨Nat.one_pos, ?_, fun k => ?_⟩
    · intro i b hb
      cases i with
      | zero => cases hb; exact ⟨fun e he => (by cases he), List.nodup_nil⟩
      | succ i => cases hb
    · show CellTable.find [[]] k = _
      unfold CellTable.find bucketOf
      rw [show (vecHash k).toNat % ([[]] : CellTable α).length = 0 from Nat.mod_one _]
      rfl
  | append_singleton ops o ih =>
    obtain ⟨h1, h2, h3⟩ := ih (fun n hn => hg n (by simp [hn]))
    have hrun : CellTable.run (ops ++ [o]) = (CellTable.run ops).step o := by
      unfold CellTable.run
      rw [List.foldl_append]
      rfl
    rw [hrun]
    generalize CellTable.run ops = t at h1 h2 h3
    have hidx : ∀ k, bucketOf t.length k < t.length := fun k => Nat.mod_lt _ h1
    cases o with
    | push k x =>
      show 0 < (t.push k x).length ∧ Sorted1 (t.push k x) ∧ ∀ j, (t.push k x).find j = _
      have hlen : (t.push k x).length = t.length := by unfold CellTable.push; rw [List.length_modify]
      have hget : ∀ i, (t.push k x)[i]? = if bucketOf t.length k = i then (cellPush k x) <$> t[i]? else t[i]? := by
        intro i
        unfold CellTable.push
        rw [List.getElem?_modify]
        split <;> simp_all
      refine ⟨by rw [hlen]; exact h1, ?_, ?_⟩
      · intro i b hb
        rw [hget] at hb
        rw [hlen]
        by_cases hi : bucketOf t.length k = i
        · rw [if_pos hi] at hb
          cases hti : t[i]? with
          | none => rw [hti] at hb; cases hb
          | some b' =>
            rw [hti] at hb
            have hb' : cellPush k x b' = b := Option.some.inj hb
            subst hb'
            obtain ⟨g1, g2⟩ := h2 i b' hti
            have hk := cellPush_keys k x b'
            constructor
            · intro e he
              have he' : e.1 ∈ (cellPush k x b').map Prod.fst := List.mem_map_of_mem he
              rw [hk] at he'
              have : e.1 ∈ b'.map Prod.fst ∨ e.1 = k := by
                split at he'
                · exact Or.inl he'
                · rcases List.mem_append.1 he' with h | h
                  · exact Or.inl h
                  · exact Or.inr (List.mem_singleton.1 h)
              rcases this with h | h
              · obtain ⟨e', he', hee⟩ := List.mem_map.1 h
                rw [← hee]
                exact g1 e' he'
              · rw [h]
                exact hi
            · rw [hk]
              split
              · exact g2
              · rename_i hn
                rw [List.nodup_append]
                exact ⟨g2, List.nodup_singleton _, fun a ha b hb => by
                  rw [List.mem_singleton.1 hb]
                  exact fun c => hn (c ▸ ha)⟩
        · rw [if_neg hi] at hb
          exact h2 i b hb
      · intro j
        have hput : putUnder (ops ++ [TableOp.push k x]) j = if k = j then putUnder ops j ++ [x] else putUnder ops j := by
          unfold putUnder
          rw [List.filterMap_append]
          by_cases h : k = j
          · simp [h]
          · simp [h]
        rw [hput]
        have hf : (t.push k x).find j = if k = j then some ((t.find j).getD [] ++ [x]) else t.find j := by
          unfold CellTable.find
          rw [hlen, hget]
          obtain ⟨b, hb⟩ : ∃ b, t[bucketOf t.length j]? = some b := ⟨_, List.getElem?_eq_getElem (hidx j)⟩
          rw [hb]
          by_cases hi : bucketOf t.length k = bucketOf t.length j
          · rw [if_pos hi]
            show cellFind j (cellPush k x b) = _
            rw [cellFind_push]
          · rw [if_neg hi, if_neg (fun c => hi (by rw [c]))]
        rw [hf, h3 j]
        by_cases h : k = j
        · rw [if_pos h, if_pos h, if_neg (c := putUnder ops j ++ [x] = []) (by simp)]
          by_cases he : putUnder ops j = []
          · rw [if_pos he, he]
            rfl
          · rw [if_neg he]
            rfl
        · rw [if_neg h, if_neg h]
    | grow n =>
      have hn : 0 < n := hg n (by simp)
      have hput : ∀ j, putUnder (ops ++ [TableOp.grow n]) j = putUnder ops j := by
        intro j
        unfold putUnder
        rw [List.filterMap_append]
        simp
      have hempty : ∀ j, CellTable.find (List.replicate n ([] : List (CellKey × List α))) j = none := by
        intro j
        unfold CellTable.find
        rw [List.getElem?_replicate]
        split
        · rfl
        · rename_i b hb
          split at hb
          · rw [← Option.some.inj hb]
            rfl
          · cases hb
      have hs0 : Sorted1 (List.replicate n ([] : List (CellKey × List α))) := by
        intro i b hb
        rw [List.getElem?_replicate] at hb
        split at hb
        · rw [← Option.some.inj hb]
          exact ⟨fun e he => (by cases he), List.nodup_nil⟩
        · cases hb
      obtain ⟨r1, r2, r3⟩ := find_place t.entries (List.replicate n []) (by rw [List.length_replicate]; exact hn) hs0
        (entries_nodup t h2) (fun e _ => hempty e.1)
      refine ⟨?_, r1, fun j => ?_⟩
      · show 0 < (t.entries.foldl CellTable.place (List.replicate n [])).length
        rw [r2, List.length_replicate]
        exact hn
      · show (t.entries.foldl CellTable.place (List.replicate n [])).find j = _
        rw [r3 j, find_entries t h1 h2, hempty, hput, h3 j]
        by_cases he : putUnder ops j = []
        · rw [if_pos he]
        · rw [if_neg he]

/-- **C120.** Whatever is put into a table of cells and whenever it grows, what is found under a cell is exactly
what was put under that cell, in that order, and nothing is found under a cell that was never used: cells with
the same hash are kept apart. -/
theorem C120_found {α : Type} (ops : List (TableOp α)) (hg : GrowsOnly ops) (k : CellKey) :
    (CellTable.run ops).find k = if putUnder ops k = [] then none else some (putUnder ops k) :=
  (run_find ops hg).2.2 k

/-- **C120.** A loop over the table meets every cell that was used exactly once, with what was put under it. -/
theorem C120_once {α : Type} (ops : List (TableOp α)) (hg : GrowsOnly ops) :
    ((CellTable.run ops).entries.map Prod.fst).Nodup ∧
    ∀ k l, (k, l) ∈ (CellTable.run ops).entries ↔ l = putUnder ops k ∧ l ≠ [] := by
  obtain ⟨h1, h2, h3⟩ := run_find ops hg
  have hn := entries_nodup _ h2
  refine ⟨hn, fun k l => ?_⟩
  have hb := find_entries _ h1 h2 k
  rw [h3 k] at hb
  have mem : ∀ (b : List (CellKey × List α)), (b.map Prod.fst).Nodup → ((k, l) ∈ b ↔ cellFind k b = some l) := by
    intro b
    induction b with
    | nil => intro _; exact ⟨fun h => (by cases h), fun h => (by cases h)⟩
    | cons e b ih =>
      intro hn
      rw [List.map_cons, List.nodup_cons] at hn
      rw [cellFind, List.mem_cons]
      by_cases he : e.1 = k
      · rw [if_pos he]
        constructor
        · rintro (h | h)
          · rw [← h]
          · exact absurd (List.mem_map_of_mem (f := Prod.fst) h) (by rw [← he]; exact hn.1)
        · intro h
          left
          rw [← he, ← Option.some.inj h]
      · rw [if_neg he, ← ih hn.2]
        exact ⟨fun h => h.resolve_left (fun c => he (by rw [← c])), fun h => Or.inr h⟩
  rw [mem _ hn, hb]
  by_cases hp : putUnder ops k = []
  · rw [if_pos hp]
    exact ⟨fun h => (by cases h), fun h => absurd (h.1.trans hp) h.2⟩
  · rw [if_neg hp]
    constructor
    · intro h
      rw [← Option.some.inj h]
      exact ⟨rfl, hp⟩
    · intro h
      rw [h.1]

/-- **C120.** Two cells that differ in the last coordinate only have different hashes, and so have two
vectors of one element. -/
theorem C120_column (v : List (BitVec 32)) (z z' : BitVec 32) : vecHash (v ++ [z]) = vecHash (v ++ [z']) ↔ z = z' := by
  constructor
  · intro h
    unfold vecHash at h
    rw [List.foldl_append, List.foldl_append] at h
    simp only [List.foldl_cons, List.foldl_nil] at h
    generalize v.foldl hashStep 0#64 = s at h
    unfold hashStep at h
    have h1 := BitVec.xor_right_inj s |>.1 h
    have h2 : z.signExtend 64 = z'.signExtend 64 :=
      (BitVec.add_left_inj _).1 ((BitVec.add_left_inj _).1 ((BitVec.add_left_inj _).1 h1))
    have h3 := congrArg BitVec.toInt h2
    rw [BitVec.toInt_signExtend_of_le (by norm_num), BitVec.toInt_signExtend_of_le (by norm_num)] at h3
    exact BitVec.eq_of_toInt_eq h3
  · rintro rfl
    rfl

/-- The hash of a pixel in numbers. -/
theorem pixel_hash (r c : ℕ) (hr : r < 40) (hc : c < 1800) :
    (vecHash (pixelAt r c)).toNat =
      (2654435769 + r) ^^^ (c + 2654435769 + (2654435769 + r) * 64 + (2654435769 + r) / 4) := by
  have hsmall : ∀ n : ℕ, n < 1800 → ((BitVec.ofNat 32 n).signExtend 64).toNat = n := by
    intro n hn
    rw [BitVec.signExtend_eq_setWidth_of_msb_false (by rw [BitVec.msb_eq_decide]; simp; omega), BitVec.toNat_setWidth,
      BitVec.toNat_ofNat]
    omega
  have h1 : (hashStep 0#64 (BitVec.ofNat 32 r)).toNat = 2654435769 + r := by
    unfold hashStep
    rw [BitVec.toNat_xor, BitVec.toNat_add, BitVec.toNat_add, BitVec.toNat_add, hsmall r (by omega)]
    simp
    omega
  show (hashStep (hashStep 0#64 (BitVec.ofNat 32 r)) (BitVec.ofNat 32 c)).toNat = _
  generalize hashStep 0#64 (BitVec.ofNat 32 r) = s at h1
  unfold hashStep
  rw [BitVec.toNat_xor, BitVec.toNat_add, BitVec.toNat_add, BitVec.toNat_add, hsmall c hc, BitVec.toNat_shiftLeft,
    BitVec.toNat_ushiftRight, h1, Nat.shiftLeft_eq, Nat.shiftRight_eq_div_pow]
  congr 1
  simp
  omega

/-- **C120 (negation).** In the range image of the default size, 40 rows of 1800, the hashes crowd: at least seventeen pixels share
one hash, so that a search in the table has to go through all of them. -/
theorem C120_crowded_fails : ∃ h : ℕ, 16 < ((Finset.range 40 ×ˢ Finset.range 1800).filter
    fun p => (vecHash (pixelAt p.1 p.2)).toNat = h).card := by
  have key : ∀ p ∈ Finset.range 40 ×ˢ Finset.range 1800,
      (((vecHash (pixelAt p.1 p.2)).toNat / 128) ^^^ 20737779, (vecHash (pixelAt p.1 p.2)).toNat % 128) ∈
        Finset.Icc 1353140108 1353140142 ×ˢ Finset.range 128 := by
    intro p hp
    rw [Finset.mem_product, Finset.mem_range, Finset.mem_range] at hp
    rw [Finset.mem_product]
    refine ⟨?_, Finset.mem_range.2 (Nat.mod_lt _ (by norm_num))⟩
    dsimp only
    rw [pixel_hash p.1 p.2 hp.1 hp.2, show (128 : ℕ) = 2 ^ 7 from rfl, Nat.xor_div_two_pow,
      show (2654435769 + p.1) / 2 ^ 7 = 20737779 from by omega, Nat.xor_comm 20737779, Nat.xor_assoc, Nat.xor_self,
      Nat.xor_zero, Finset.mem_Icc]
    omega
  obtain ⟨y, _, hy⟩ := Finset.exists_lt_card_fiber_of_mul_lt_card_of_maps_to key (n := 16) (by
    rw [Finset.card_product, Finset.card_product, Nat.card_Icc, Finset.card_range, Finset.card_range, Finset.card_range]
    norm_num)
  refine ⟨(y.1 ^^^ 20737779) * 128 + y.2, lt_of_lt_of_le hy (Finset.card_le_card ?_)⟩
  intro p hp
  rw [Finset.mem_filter] at hp ⊢
  refine ⟨hp.1, ?_⟩
  rw [← hp.2]
  dsimp only
  rw [Nat.xor_assoc, Nat.xor_self, Nat.xor_zero]
  omega

/-- **C120 (negation).** Neighbouring cells share their hashes all the same: here two cells three and two
steps apart, and two pixels of neighbouring rows. -/
theorem C120_near_fails : cellAt 5 (-10) (-2) ≠ cellAt 5 (-7) 0 ∧ vecHash (cellAt 5 (-10) (-2)) = vecHash (cellAt 5 (-7) 0) ∧
    pixelAt 0 61 ≠ pixelAt 1 0 ∧ vecHash (pixelAt 0 61) = vecHash (pixelAt 1 0) := by
  decide

/-- Even so the two are kept apart. -/
example : (CellTable.run [.push (cellAt 5 (-10) (-2)) 'a', .grow 13, .push (cellAt 5 (-7) 0) 'b',
    .push (cellAt 5 (-10) (-2)) 'c']).find (cellAt 5 (-10) (-2)) = some ['a', 'c'] := by decide

theorem perm_of_map {α β : Type} (f : α → β) {l1 m : List β} (h : l1.Perm m) :
    ∀ l2 : List α, m = l2.map f → ∃ l : List α, l.Perm l2 ∧ l1 = l.map f := by
  induction h with
  | nil =>
    intro l2 h2
    exact ⟨l2, List.Perm.refl _, h2⟩
  | cons x _ ih =>
    intro l2 h2
    cases l2 with
    | nil => cases h2
    | cons a l2 =>
      rw [List.map_cons, List.cons_eq_cons] at h2
      obtain ⟨l, h3, h4⟩ := ih l2 h2.2
      exact ⟨a :: l, h3.cons a, by rw [List.map_cons, h2.1, h4]⟩
  | swap x y t =>
    intro l2 h2
    match l2, h2 with
    | [], h2 => cases h2
    | [_], h2 => cases h2
    | a :: b :: l2, h2 =>
      rw [List.map_cons, List.map_cons, List.cons_eq_cons, List.cons_eq_cons] at h2
      exact ⟨b :: a :: l2, List.Perm.swap _ _ _, by rw [List.map_cons, List.map_cons, h2.1, h2.2.1, h2.2.2]⟩
  | trans _ _ ih1 ih2 =>
    intro l2 h2
    obtain ⟨l, h3, h4⟩ := ih2 l2 h2
    obtain ⟨l', h5, h6⟩ := ih1 l h4
    exact ⟨l', h5.trans h3, h6⟩

/-- **C120.** Two cells have the same key exactly if their coordinates agree modulo 2^32. -/
theorem C120_key (v w : Voxel) : voxelKey v = voxelKey w ↔
    (v.x - w.x) % 4294967296 = 0 ∧ (v.y - w.y) % 4294967296 = 0 ∧ (v.z - w.z) % 4294967296 = 0 := by
  have key : ∀ a b : Int, BitVec.ofInt 32 a = BitVec.ofInt 32 b ↔ (a - b) % 4294967296 = 0 := by
    intro a b
    rw [← BitVec.toNat_inj, BitVec.toNat_ofInt, BitVec.toNat_ofInt]
    show (a % 4294967296).toNat = (b % 4294967296).toNat ↔ _
    omega
  unfold voxelKey
  rw [List.cons_eq_cons, List.cons_eq_cons, List.cons_eq_cons, key, key, key]
  exact ⟨fun h => ⟨h.1, h.2.1, h.2.2.1⟩, fun h => ⟨h.1, h.2.1, h.2.2, rfl⟩⟩

/-- **C120.** The voxel grid: if the cells of all points fit in an `int`, the loop over the table meets the groups
of points that share a cell, in an order that depends on the hashes and the growth of the table. -/
theorem C120_grid (size : Rat) (pts : List (InnerPoint Rat)) (ops : List (TableOp (InnerPoint Rat))) (hg : GrowsOnly ops)
    (hp : putsOf ops = pts.map fun p => (voxelKey (gridKey size p), p)) (hf : ∀ p ∈ pts, FitsInt (gridKey size p)) :
    ∃ io : IterOrder (Voxel × List (InnerPoint Rat)),
      (CellTable.run ops).entries = (io.order (bucketAll (gridKey size) pts)).map fun e => (voxelKey e.1, e.2) := by
  have inv := tableInv_all (gridKey size) pts
  obtain ⟨hn, hm⟩ := C120_once ops hg
  have hput : ∀ k, putUnder ops k = pts.filter fun p => decide (voxelKey (gridKey size p) = k) := by
    intro k
    have e1 : putUnder ops k = (putsOf ops).filterMap fun e => if e.1 = k then some e.2 else none := by
      unfold putUnder putsOf
      rw [List.filterMap_filterMap]
      congr 1
      funext o
      cases o <;> rfl
    rw [e1, hp, List.filterMap_map]
    clear e1 hp hf inv hn hm
    induction pts with
    | nil => rfl
    | cons p pts ih =>
      rw [List.filterMap_cons, List.filter_cons, ih]
      by_cases h : voxelKey (gridKey size p) = k
      · simp [h]
      · simp [h]
  have hinj : ∀ p ∈ pts, ∀ q ∈ pts, voxelKey (gridKey size p) = voxelKey (gridKey size q) → gridKey size p = gridKey size q := by
    intro p hp q hq h
    obtain ⟨h1, h2, h3⟩ := (C120_key _ _).1 h
    have fp := hf p hp
    have fq := hf q hq
    unfold FitsInt at fp fq
    simp only [List.mem_cons, List.not_mem_nil, or_false, forall_eq_or_imp, forall_eq] at fp fq
    generalize gridKey size p = a at *
    generalize gridKey size q = b at *
    obtain ⟨ax, ay, az⟩ := a
    obtain ⟨bx, by_, bz⟩ := b
    dsimp only at *
    have e1 : ax = bx := by omega
    have e2 : ay = by_ := by omega
    have e3 : az = bz := by omega
    rw [e1, e2, e3]
  have hocc : ∀ e ∈ bucketAll (gridKey size) pts, ∃ p ∈ pts, gridKey size p = e.1 := by
    intro e he
    obtain ⟨h1, h2⟩ := inv.content e he
    obtain ⟨p, hp⟩ := List.exists_mem_of_ne_nil _ h2
    rw [h1, List.mem_filter, decide_eq_true_iff] at hp
    exact ⟨p, hp.1, hp.2⟩
  have hfil : ∀ p ∈ pts, (pts.filter fun q => decide (voxelKey (gridKey size q) = voxelKey (gridKey size p))) =
      pts.filter fun q => decide (gridKey size q = gridKey size p) := by
    intro p hp
    apply List.filter_congr
    intro q hq
    rw [decide_eq_decide]
    exact ⟨hinj q hq p hp, fun h => by rw [h]⟩
  have hnd : ((bucketAll (gridKey size) pts).map fun e => (voxelKey e.1, e.2)).Nodup := by
    have : (((bucketAll (gridKey size) pts).map fun e => (voxelKey e.1, e.2)).map Prod.fst).Nodup := by
      rw [List.map_map]
      show ((bucketAll (gridKey size) pts).map fun e => voxelKey e.1).Nodup
      have h0 : (bucketAll (gridKey size) pts).Nodup := List.Nodup.of_map _ inv.nodup
      refine List.Nodup.map_on ?_ h0
      intro a ha b hb hab
      obtain ⟨p, hp, ea⟩ := hocc a ha
      obtain ⟨q, hq, eb⟩ := hocc b hb
      have : a.1 = b.1 := by
        rw [← ea, ← eb]
        exact hinj p hp q hq (by rw [ea, eb]; exact hab)
      refine Prod.ext this ?_
      rw [(inv.content a ha).1, (inv.content b hb).1, this]
    exact List.Nodup.of_map _ this
  have hperm : (CellTable.run ops).entries.Perm ((bucketAll (gridKey size) pts).map fun e => (voxelKey e.1, e.2)) := by
    rw [List.perm_ext_iff_of_nodup (List.Nodup.of_map _ hn) hnd]
    rintro ⟨k, l⟩
    rw [hm k l, hput k, List.mem_map]
    constructor
    · rintro ⟨rfl, hne⟩
      obtain ⟨p, hp⟩ := List.exists_mem_of_ne_nil _ hne
      rw [List.mem_filter, decide_eq_true_iff] at hp
      obtain ⟨e, he, hep⟩ := inv.all p hp.1
      refine ⟨e, he, ?_⟩
      rw [(inv.content e he).1, hep, hp.2, ← hfil p hp.1, hp.2]
    · rintro ⟨e, he, hke⟩
      obtain ⟨p, hp, ep⟩ := hocc e he
      obtain ⟨c1, c2⟩ := inv.content e he
      have e1 : voxelKey e.1 = k := congrArg Prod.fst hke
      have e2 : e.2 = l := congrArg Prod.snd hke
      refine ⟨?_, by rw [← e2]; exact c2⟩
      rw [← e2, c1, ← e1, ← ep, hfil p hp]
  obtain ⟨l, hl, hle⟩ : ∃ l : List (Voxel × List (InnerPoint Rat)), l.Perm (bucketAll (gridKey size) pts) ∧
      (CellTable.run ops).entries = l.map fun e => (voxelKey e.1, e.2) := by
    exact perm_of_map _ hperm _ rfl
  classical
  refine ⟨⟨fun m => if m = bucketAll (gridKey size) pts then l else m, ?_⟩, ?_⟩
  · intro m
    split
    · rename_i h
      rw [h]
      exact hl
    · exact List.Perm.refl _
  · dsimp only
    rw [if_pos rfl]
    exact hle

example : ∃ ops : List (TableOp (InnerPoint Rat)), GrowsOnly ops ∧
    putsOf ops = ([⟨0, 0, 0, 0, 0⟩, ⟨-7, 3, 1, 0, 0⟩, ⟨1 / 4, 0, 0, 0, 0⟩] : List (InnerPoint Rat)).map (fun p => (voxelKey (gridKey 1 p), p)) ∧
    ∀ p ∈ ([⟨0, 0, 0, 0, 0⟩, ⟨-7, 3, 1, 0, 0⟩, ⟨1 / 4, 0, 0, 0, 0⟩] : List (InnerPoint Rat)), FitsInt (gridKey 1 p) := by
  refine ⟨[.push (voxelKey (gridKey 1 ⟨0, 0, 0, 0, 0⟩)) ⟨0, 0, 0, 0, 0⟩, .grow 13,
    .push (voxelKey (gridKey 1 ⟨-7, 3, 1, 0, 0⟩)) ⟨-7, 3, 1, 0, 0⟩,
    .push (voxelKey (gridKey 1 ⟨1 / 4, 0, 0, 0, 0⟩)) ⟨1 / 4, 0, 0, 0, 0⟩], ?_, rfl, ?_⟩
  · intro n hn
    simp at hn
    omega
  · unfold FitsInt
    decide +kernel

/-- **C120 (negation).** Points 2^32 cells apart are averaged with each other. -/
theorem C120_grid_fails : gridKey 1 ⟨0, 0, 0, 0, 0⟩ ≠ gridKey 1 ⟨4294967296, 0, 0, 0, 0⟩ ∧
    voxelKey (gridKey 1 ⟨0, 0, 0, 0, 0⟩) = voxelKey (gridKey 1 ⟨4294967296, 0, 0, 0, 0⟩) := by
  decide +kernel

end Verif
