import Verif.Model.Filters
import Verif.Spec.Filters
import Mathlib.Data.List.Basic
import Mathlib.Data.List.Sort
import Mathlib.Tactic.Linarith
import Mathlib.Tactic.Ring
/-! Lemmas about filters. -/
namespace Verif
open Spec
variable {R : Type} [Field R] [LinearOrder R]

section scan
variable {σ : Type} (keep : σ → Nat → InnerPoint R → Bool × σ)

theorem scan_ge (s : σ) (i : Nat) (ps : List (InnerPoint R)) :
    (∀ j ∈ (scanFrom keep s i ps).1.inl, i ≤ j ∧ j < i + ps.length) ∧
    (∀ j ∈ (scanFrom keep s i ps).1.outl, i ≤ j ∧ j < i + ps.length) := by
  induction ps generalizing s i with
  | nil => simp [scanFrom]
  | cons p ps ih =>
    obtain ⟨h1, h2⟩ := ih (keep s i p).2 (i + 1)
    simp only [scanFrom, List.length_cons]
    split
    · constructor
      · intro j hj
        simp only [List.mem_cons] at hj
        rcases hj with rfl | hj
        · omega
        · have := h1 j hj; omega
      · intro j hj
        have := h2 j hj; omega
    · constructor
      · intro j hj
        have := h1 j hj; omega
      · intro j hj
        simp only [List.mem_cons] at hj
        rcases hj with rfl | hj
        · omega
        · have := h2 j hj; omega

theorem scan_pairwise (s : σ) (i : Nat) (ps : List (InnerPoint R)) :
    (scanFrom keep s i ps).1.inl.Pairwise (· < ·) ∧ (scanFrom keep s i ps).1.outl.Pairwise (· < ·) := by
  induction ps generalizing s i with
  | nil => simp [scanFrom]
  | cons p ps ih =>
    obtain ⟨h1, h2⟩ := ih (keep s i p).2 (i + 1)
    have hg := scan_ge keep (keep s i p).2 (i + 1) ps
    simp only [scanFrom]
    split
    · refine ⟨List.pairwise_cons.2 ⟨?_, h1⟩, h2⟩
      intro j hj; have := hg.1 j hj; omega
    · refine ⟨h1, List.pairwise_cons.2 ⟨?_, h2⟩⟩
      intro j hj; have := hg.2 j hj; omega

theorem scan_disjoint (s : σ) (i : Nat) (ps : List (InnerPoint R)) :
    ∀ j ∈ (scanFrom keep s i ps).1.inl, j ∉ (scanFrom keep s i ps).1.outl := by
  induction ps generalizing s i with
  | nil => simp [scanFrom]
  | cons p ps ih =>
    have h := ih (keep s i p).2 (i + 1)
    have hg := scan_ge keep (keep s i p).2 (i + 1) ps
    simp only [scanFrom]
    split
    · intro j hj
      simp only [List.mem_cons] at hj
      rcases hj with rfl | hj
      · intro hc; have := hg.2 _ hc; omega
      · exact h j hj
    · intro j hj
      simp only [List.mem_cons, not_or]
      refine ⟨?_, h j hj⟩
      have := hg.1 j hj; omega

theorem scan_complete (s : σ) (i : Nat) (ps : List (InnerPoint R)) (j : Nat) (h1 : i ≤ j)
    (h2 : j < i + ps.length) :
    j ∈ (scanFrom keep s i ps).1.inl ∨ j ∈ (scanFrom keep s i ps).1.outl := by
  induction ps generalizing s i with
  | nil => simp at h2; omega
  | cons p ps ih =>
    simp only [List.length_cons] at h2
    simp only [scanFrom]
    by_cases hj : j = i
    · subst hj; split <;> simp
    · have := ih (keep s i p).2 (i + 1) (by omega) (by omega)
      split
      · simp only [List.mem_cons]; tauto
      · simp only [List.mem_cons]; tauto

theorem scan_points (s : σ) (i : Nat) (ps : List (InnerPoint R)) :
    (scanFrom keep s i ps).1.pts.map some = (scanFrom keep s i ps).1.inl.map (fun j => ps[j - i]?) := by
  induction ps generalizing s i with
  | nil => simp [scanFrom]
  | cons p ps ih =>
    have h := ih (keep s i p).2 (i + 1)
    have hg := scan_ge keep (keep s i p).2 (i + 1) ps
    have hm : (scanFrom keep (keep s i p).2 (i + 1) ps).1.inl.map (fun j => (p :: ps)[j - i]?) =
        (scanFrom keep (keep s i p).2 (i + 1) ps).1.inl.map (fun j => ps[j - (i + 1)]?) := by
      apply List.map_congr_left
      intro j hj
      have := (hg.1 j hj).1
      have e : j - i = (j - (i + 1)) + 1 := by omega
      rw [e]; simp
    simp only [scanFrom]
    split
    · simp only [List.map_cons, h, hm]; simp
    · simp only [h, hm]

theorem scan_splits (s : σ) (ps : List (InnerPoint R)) :
    Splits ps.length (scanFrom keep s 0 ps).1.inl (scanFrom keep s 0 ps).1.outl := by
  refine ⟨(scan_pairwise keep s 0 ps).1, (scan_pairwise keep s 0 ps).2, scan_disjoint keep s 0 ps, ?_⟩
  intro i
  constructor
  · intro h; exact scan_complete keep s 0 ps i (by omega) (by omega)
  · rintro (h | h)
    · have := (scan_ge keep s 0 ps).1 i h; omega
    · have := (scan_ge keep s 0 ps).2 i h; omega

end scan

/-- membership of an index in the inliers of a stateless scan -/
theorem scan_mem (keep : Nat → InnerPoint R → Bool) (i : Nat) (ps : List (InnerPoint R)) (j : Nat) :
    j ∈ (scanFrom (fun (_ : Unit) i p => (keep i p, ())) () i ps).1.inl ↔
      i ≤ j ∧ ∃ p, ps[j - i]? = some p ∧ keep j p = true := by
  induction ps generalizing i with
  | nil => simp [scanFrom]
  | cons p ps ih =>
    simp only [scanFrom]
    by_cases hk : keep i p = true
    · simp only [hk, if_true, List.mem_cons, ih]
      constructor
      · rintro (rfl | ⟨h1, q, h2, h3⟩)
        · exact ⟨le_refl _, p, by simp, hk⟩
        · refine ⟨by omega, q, ?_, h3⟩
          have e : j - i = (j - (i + 1)) + 1 := by omega
          rw [e]; simpa using h2
      · rintro ⟨h1, q, h2, h3⟩
        by_cases hj : j = i
        · exact Or.inl hj
        · refine Or.inr ⟨by omega, q, ?_, h3⟩
          have e : j - i = (j - (i + 1)) + 1 := by omega
          rw [e] at h2; simpa using h2
    · simp only [hk, Bool.false_eq_true, if_false, ih]
      constructor
      · rintro ⟨h1, q, h2, h3⟩
        refine ⟨by omega, q, ?_, h3⟩
        have e : j - i = (j - (i + 1)) + 1 := by omega
        rw [e]; simpa using h2
      · rintro ⟨h1, q, h2, h3⟩
        by_cases hj : j = i
        · subst hj; simp at h2; subst h2; exact absurd h3 hk
        · refine ⟨by omega, q, ?_, h3⟩
          have e : j - i = (j - (i + 1)) + 1 := by omega
          rw [e] at h2; simpa using h2

theorem runScan_filtered (keep : Nat → InnerPoint R → Bool) (st : FState R) (c out : InnerCloud R)
    (h : st.input = some c) :
    Filtered c (runScan keep st out).1.inliers (runScan keep st out).1.outliers (runScan keep st out).2 := by
  unfold runScan
  rw [h]
  refine ⟨?_, ?_, rfl⟩
  · simpa [filterPrepare] using scan_splits (fun (_ : Unit) i p => (keep i p, ())) () c.points
  · simpa [filterPrepare] using scan_points (fun (_ : Unit) i p => (keep i p, ())) () 0 c.points

theorem runScan_mem (keep : Nat → InnerPoint R → Bool) (st : FState R) (c out : InnerCloud R)
    (h : st.input = some c) (j : Nat) :
    j ∈ (runScan keep st out).1.inliers ↔ ∃ p, c.points[j]? = some p ∧ keep j p = true := by
  unfold runScan
  rw [h]
  simpa [filterPrepare] using scan_mem keep 0 c.points j

theorem runScan_again (keep : Nat → InnerPoint R → Bool) (st : FState R) (c out out' : InnerCloud R)
    (h : st.input = some c) :
    runScan keep (runScan keep st out).1 out' = runScan keep st out := by
  unfold runScan
  simp [h, filterPrepare]

theorem setInput_input (st : FState R) (c : InnerCloud R) (h : c.points ≠ []) :
    st.setInput (some c) = { input := some c, inliers := [], outliers := [] } := by
  simp [FState.setInput, List.isEmpty_iff, h]

theorem setInput_empty (st : FState R) (c : InnerCloud R) (h : c.points = []) :
    st.setInput (some c) = { input := none, inliers := [], outliers := [] } := by
  simp [FState.setInput, h]

theorem copyAll_filtered (st : FState R) (c out : InnerCloud R) (h : c.points ≠ []) :
    Filtered c (copyAll (st.setInput (some c)) out).1.inliers
      (copyAll (st.setInput (some c)) out).1.outliers (copyAll (st.setInput (some c)) out).2 := by
  rw [setInput_input st c h]
  refine ⟨⟨?_, ?_, ?_, ?_⟩, ?_, rfl⟩
  · simpa [copyAll] using List.pairwise_lt_range
  · simp [copyAll]
  · simp [copyAll]
  · simp [copyAll]
  · simp only [copyAll, List.nil_append]
    apply List.ext_getElem?
    intro i
    by_cases hi : i < c.points.length
    · simp [hi]
    · simp [hi]

theorem pickPoints_ok (pts : List (InnerPoint R)) (l : List Nat) (h : ∀ i ∈ l, i < pts.length) :
    ∃ ps, pickPoints pts l = .ok ps ∧ ps.map some = l.map (fun i => pts[i]?) := by
  induction l with
  | nil => exact ⟨[], rfl, rfl⟩
  | cons a l ih =>
    obtain ⟨ps, h1, h2⟩ := ih (fun i hi => h i (by simp [hi]))
    have ha : a < pts.length := h a (by simp)
    refine ⟨pts[a] :: ps, ?_, ?_⟩
    · simp only [pickPoints, List.getElem?_eq_getElem ha, h1]; rfl
    · simp [h2, List.getElem?_eq_getElem ha]

theorem filterMap_get (pts : List (InnerPoint R)) (l : List Nat) (hl : ∀ i ∈ l, i < pts.length) :
    (l.filterMap (fun i => pts[i]?)).map some = l.map (fun i => pts[i]?) := by
  induction l with
  | nil => rfl
  | cons a l ih =>
    have ha : a < pts.length := hl a (by simp)
    rw [List.filterMap_cons, List.getElem?_eq_getElem ha]
    simp only [List.map_cons, ih (fun i hi => hl i (by simp [hi]))]
    rw [List.getElem?_eq_getElem ha]

/-! ### buckets -/
section buckets
variable {K V : Type} [DecidableEq K]

/-- content of the bucket of a key -/
def bucketGet (t : List (K × List V)) (k : K) : List V :=
  match t.find? (fun e => e.1 = k) with
  | none => []
  | some e => e.2

theorem bucketPush_keys (k : K) (x : V) (t : List (K × List V)) :
    (bucketPush k x t).map Prod.fst = if k ∈ t.map Prod.fst then t.map Prod.fst else t.map Prod.fst ++ [k] := by
  induction t with
  | nil => simp [bucketPush]
  | cons e t ih =>
    obtain ⟨k', xs⟩ := e
    simp only [bucketPush]
    by_cases h : k' = k
    · simp [h]
    · simp only [h, if_false, List.map_cons, ih, List.mem_cons]
      have h' : ¬ k = k' := fun h'' => h h''.symm
      by_cases hm : k ∈ t.map Prod.fst
      · rw [if_pos hm, if_pos (Or.inr hm)]
      · rw [if_neg hm, if_neg (by simp [h', hm])]; simp

/-- invariant of a table filled with the elements `xs` -/
structure TableInv (key : V → K) (xs : List V) (t : List (K × List V)) : Prop where
  nodup : (t.map Prod.fst).Nodup
  content : ∀ e ∈ t, e.2 = xs.filter (fun x => decide (key x = e.1)) ∧ e.2 ≠ []
  all : ∀ x ∈ xs, ∃ e ∈ t, e.1 = key x

theorem bucketPush_mem (k : K) (x : V) (t : List (K × List V)) (hn : (t.map Prod.fst).Nodup)
    (e : K × List V) :
    e ∈ bucketPush k x t ↔ (e.1 ≠ k ∧ e ∈ t) ∨ (e.1 = k ∧
      ((∃ ys, (k, ys) ∈ t ∧ e.2 = ys ++ [x]) ∨ (k ∉ t.map Prod.fst ∧ e.2 = [x]))) := by
  induction t with
  | nil =>
    obtain ⟨k', xs⟩ := e
    simp only [bucketPush, List.mem_singleton, Prod.mk.injEq]
    simp
  | cons e0 t ih =>
    obtain ⟨k0, ys0⟩ := e0
    simp only [List.map_cons, List.nodup_cons] at hn
    obtain ⟨k', xs⟩ := e
    simp only [bucketPush]
    by_cases h : k0 = k
    · subst h
      simp only [if_true, List.mem_cons, Prod.mk.injEq]
      constructor
      · rintro (⟨rfl, rfl⟩ | hm)
        · exact Or.inr ⟨rfl, Or.inl ⟨ys0, Or.inl ⟨trivial, rfl⟩, rfl⟩⟩
        · refine Or.inl ⟨?_, Or.inr hm⟩
          rintro rfl
          exact hn.1 (List.mem_map.2 ⟨_, hm, rfl⟩)
      · rintro (⟨h1, h2⟩ | ⟨rfl, h2⟩)
        · rcases h2 with ⟨rfl, -⟩ | h2
          · exact absurd rfl h1
          · exact Or.inr h2
        · rcases h2 with ⟨ys, h3, h4⟩ | ⟨h3, -⟩
          · rcases h3 with ⟨-, rfl⟩ | h3
            · exact Or.inl ⟨rfl, h4⟩
            · exact absurd (List.mem_map.2 ⟨_, h3, rfl⟩) hn.1
          · simp at h3
    · have h' : ¬ k = k0 := fun h'' => h h''.symm
      simp only [h, if_false, List.mem_cons, Prod.mk.injEq, ih hn.2, h', false_and, false_or,
        List.map_cons]
      constructor
      · rintro (⟨rfl, rfl⟩ | (⟨h1, h2⟩ | h2))
        · exact Or.inl ⟨h, Or.inl ⟨rfl, rfl⟩⟩
        · exact Or.inl ⟨h1, Or.inr h2⟩
        · exact Or.inr h2
      · rintro (⟨h1, (⟨rfl, rfl⟩ | h2)⟩ | h2)
        · exact Or.inl ⟨rfl, rfl⟩
        · exact Or.inr (Or.inl ⟨h1, h2⟩)
        · exact Or.inr (Or.inr h2)

theorem tableInv_push (key : V → K) (xs : List V) (t : List (K × List V)) (x : V)
    (h : TableInv key xs t) : TableInv key (xs ++ [x]) (bucketPush (key x) x t) := by
  obtain ⟨hn, hc, ha⟩ := h
  refine ⟨?_, ?_, ?_⟩
  · rw [bucketPush_keys]
    split
    · exact hn
    · rename_i hm
      rw [List.nodup_append]
      exact ⟨hn, by simp, by simp only [List.mem_singleton]; rintro a h1 b rfl rfl; exact hm h1⟩
  · intro e he
    rw [bucketPush_mem _ _ _ hn] at he
    rcases he with ⟨h1, h2⟩ | ⟨h1, h2⟩
    · refine ⟨?_, (hc e h2).2⟩
      rw [List.filter_append, ← (hc e h2).1]
      have : ¬ key x = e.1 := fun h3 => h1 h3.symm
      simp [this]
    · rcases h2 with ⟨ys, h3, h4⟩ | ⟨h3, h4⟩
      · refine ⟨?_, by simp [h4]⟩
        have := (hc _ h3).1
        simp only at this
        rw [h4, List.filter_append, this, h1]
        simp
      · refine ⟨?_, by simp [h4]⟩
        have hz : xs.filter (fun y => decide (key y = e.1)) = [] := by
          rw [List.filter_eq_nil_iff]
          intro y hy hk
          obtain ⟨e', he', hk'⟩ := ha y hy
          apply h3
          simp only [decide_eq_true_eq] at hk
          rw [h1] at hk
          exact List.mem_map.2 ⟨e', he', by rw [hk', hk]⟩
        rw [h4, List.filter_append, hz, h1]
        simp
  · intro y hy
    have hmem : ∀ k, (k ∈ t.map Prod.fst ∨ k = key x) → ∃ e ∈ bucketPush (key x) x t, e.1 = k := by
      intro k hk
      have : k ∈ (bucketPush (key x) x t).map Prod.fst := by
        rw [bucketPush_keys]
        split
        · rename_i hm
          rcases hk with h | rfl
          · exact h
          · exact hm
        · simp only [List.mem_append, List.mem_singleton]; exact hk
      obtain ⟨e, he, rfl⟩ := List.mem_map.1 this
      exact ⟨e, he, rfl⟩
    rcases List.mem_append.1 hy with h | h
    · obtain ⟨e, he, hk⟩ := ha y h
      exact hmem _ (Or.inl (List.mem_map.2 ⟨e, he, hk⟩))
    · simp only [List.mem_singleton] at h
      subst h
      exact hmem _ (Or.inr rfl)

theorem tableInv_all (key : V → K) (xs : List V) : TableInv key xs (bucketAll key xs) := by
  have : ∀ (ys zs : List V) (t : List (K × List V)), TableInv key zs t →
      TableInv key (zs ++ ys) (ys.foldl (fun t x => bucketPush (key x) x t) t) := by
    intro ys
    induction ys with
    | nil => intro zs t h; simpa using h
    | cons y ys ih =>
      intro zs t h
      have := ih (zs ++ [y]) _ (tableInv_push key zs t y h)
      simpa using this
  have h := this xs [] [] ⟨by simp, by simp, by simp⟩
  simpa [bucketAll] using h

theorem TableInv.perm {key : V → K} {xs : List V} {t t' : List (K × List V)} (h : TableInv key xs t)
    (hp : t'.Perm t) : TableInv key xs t' :=
  ⟨(hp.map Prod.fst).nodup_iff.2 h.nodup, fun e he => h.content e (hp.mem_iff.1 he),
    fun x hx => by obtain ⟨e, he, hk⟩ := h.all x hx; exact ⟨e, hp.mem_iff.2 he, hk⟩⟩

/-- the buckets together are a permutation of the elements -/
theorem TableInv.flatten {key : V → K} {xs : List V} {t : List (K × List V)} (h : TableInv key xs t) :
    (t.flatMap Prod.snd).Perm xs := by
  classical
  rw [List.perm_iff_count]
  intro x
  obtain ⟨hn, hc, ha⟩ := h
  have gen : ∀ (t : List (K × List V)), (t.map Prod.fst).Nodup →
      (∀ e ∈ t, e.2 = xs.filter (fun x => decide (key x = e.1))) →
      (t.flatMap Prod.snd).count x = if key x ∈ t.map Prod.fst then xs.count x else 0 := by
    intro t
    induction t with
    | nil => intro _ _; simp
    | cons e t ih =>
      intro hn hc
      simp only [List.map_cons, List.nodup_cons] at hn
      rw [List.flatMap_cons, List.count_append, ih hn.2 (fun e he => hc e (by simp [he])),
        hc e (by simp)]
      by_cases hk : key x = e.1
      · have : e.1 ∉ t.map Prod.fst := hn.1
        rw [hk, if_neg this]
        rw [List.count_filter (by simp [hk])]
        simp
      · have h0 : (xs.filter (fun y => decide (key y = e.1))).count x = 0 := by
          rw [List.count_eq_zero]
          intro hm
          have := (List.mem_filter.1 hm).2
          simp [hk] at this
        rw [h0]
        simp [hk]
  rw [gen t hn (fun e he => (hc e he).1)]
  split
  · rfl
  · rename_i hk
    symm
    rw [List.count_eq_zero]
    intro hx
    obtain ⟨e, he, hk'⟩ := ha x hx
    exact hk (List.mem_map.2 ⟨e, he, hk'⟩)

end buckets
end Verif
