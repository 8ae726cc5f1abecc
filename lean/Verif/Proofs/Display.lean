import Verif.Spec.Display
import Verif.Proofs.Isam
import Verif.Proofs.Connect
import Mathlib.Data.List.Perm.Basic
import Mathlib.Tactic.Ring
/-! Proofs for C85. -/
namespace Verif
open Spec

section
variable {T E V : Type}

theorem itemLines_ok (pos : T → V) (items : List (Int × VgItem T)) (est : Int → T) (key : Int)
    (self : T) (cs : List (Int × T))
    (h : ∀ c ∈ cs, ∃ w, vgFind c.1 items = some w ∧ w.pose = est c.1) :
    itemLines pos items key self cs =
      .ok ((cs.filter fun c => decide (c.1 - key ≠ 1)).map fun c => (pos self, pos (est c.1))) := by
  induction cs with
  | nil => rfl
  | cons c cs ih =>
    have ih' := ih fun d hd => h d (List.mem_cons_of_mem _ hd)
    obtain ⟨w, hw, hp⟩ := h c List.mem_cons_self
    unfold itemLines
    by_cases e : c.1 - key = 1
    · rw [if_pos e, ih', List.filter_cons_of_neg (by simp [e])]
    · rw [if_neg e, hw, List.filter_cons_of_pos (by simp [e]), List.map_cons, ← hp]
      simp only [ih']
      rfl

theorem edgeLines_ok (pos : T → V) (items : List (Int × VgItem T)) (est : Int → T)
    (xs : List (Int × VgItem T))
    (h : ∀ x ∈ xs, ∀ c ∈ x.2.conns, ∃ w, vgFind c.1 items = some w ∧ w.pose = est c.1) :
    edgeLines pos items xs = .ok (xs.flatMap fun x =>
      if x.2.conns.length ≤ 1 then []
      else (x.2.conns.filter fun c => decide (c.1 - x.1 ≠ 1)).map fun c =>
        (pos x.2.pose, pos (est c.1))) := by
  induction xs with
  | nil => rfl
  | cons x xs ih =>
    have ih' := ih fun d hd => h d (List.mem_cons_of_mem _ hd)
    unfold edgeLines
    rw [List.flatMap_cons]
    by_cases e : x.2.conns.length ≤ 1
    · rw [if_pos e, if_pos e, ih', List.nil_append]
    · rw [if_neg e, if_neg e, itemLines_ok pos items est _ _ _ (h x List.mem_cons_self), ih']
      rfl

theorem vgItems_ext {l m : List (Int × VgItem T)} (hl : VgSorted l) (hm : VgSorted m)
    (h : ∀ i, vgFind i l = vgFind i m) : l = m := by
  induction l generalizing m with
  | nil =>
    cases m with
    | nil => rfl
    | cons y m => have := h y.1; simp [vgFind] at this
  | cons x l ih =>
    cases m with
    | nil => have := h x.1; simp [vgFind] at this
    | cons y m =>
      have hl' := List.pairwise_cons.mp hl
      have hm' := List.pairwise_cons.mp hm
      have hx := vgFind_of_mem hl (i := x.1) (it := x.2) List.mem_cons_self
      have hy := vgFind_of_mem hm (i := y.1) (it := y.2) List.mem_cons_self
      rw [h] at hx
      rw [← h] at hy
      have exy : x.1 = y.1 := by
        rcases List.mem_cons.mp (vgFind_mem hx) with a | a
        · rw [← a]
        · rcases List.mem_cons.mp (vgFind_mem hy) with b | b
          · rw [← b]
          · have p := hm'.1 _ a
            have q := hl'.1 _ b
            simp only at p q
            omega
      have hxy : x = y := by
        have h2 := vgFind_of_mem hm (i := y.1) (it := y.2) List.mem_cons_self
        rw [exy] at hx
        rw [h2] at hx
        exact Prod.ext exy (Option.some.inj hx).symm
      subst hxy
      congr 1
      apply ih hl'.2 hm'.2
      intro i
      by_cases e : i = x.1
      · rw [e, vgFind_none_of_lt hl'.1, vgFind_none_of_lt hm'.1]
      · have := h i
        obtain ⟨j, it⟩ := x
        simp only [vgFind] at this
        rwa [if_neg e, if_neg e] at this

theorem buckets_perm {A : Type} (key : A → Nat) (l : List A) (n : Nat) :
    ((List.range n).flatMap fun i => l.filter fun a => decide (key a = i)).Perm
      (l.filter fun a => decide (key a < n)) := by
  induction n with
  | zero => simp
  | succ n ih =>
    rw [List.range_succ, List.flatMap_append, List.flatMap_cons, List.flatMap_nil, List.append_nil]
    refine (ih.append_right _).trans ?_
    refine List.Perm.trans ?_ (List.filter_append_perm (fun a => decide (key a < n)) _)
    rw [List.filter_filter, List.filter_filter]
    refine List.Perm.of_eq ?_
    congr 1
    · apply List.filter_congr
      intro a _
      by_cases h : key a < n
      · have : key a < n + 1 := by omega
        simp [h, this]
      · simp [h]
    · apply List.filter_congr
      intro a _
      by_cases h : key a = n
      · simp [h]
      · by_cases h2 : key a < n
        · simp [h, h2]
        · have : ¬ key a < n + 1 := by omega
          simp [h, this]

theorem leaving_far (i : Nat) (l : List (IsamFactor T E)) :
    (leaving i l).filter (fun c => decide (c.1 ≠ i + 1)) =
      ((loopFactors l).filter fun e => decide (e.1 = i) && IsFarLoop e).map Prod.snd := by
  induction l with
  | nil => rfl
  | cons f l ih =>
    have e1 : leaving i (f :: l) = leaving i [f] ++ leaving i l := by
      rw [← List.singleton_append]; exact List.filterMap_append
    have e2 : loopFactors (f :: l) = loopFactors [f] ++ loopFactors l := by
      rw [← List.singleton_append]; exact List.filterMap_append
    rw [e1, e2, List.filter_append, List.filter_append, List.map_append, ih]
    congr 1
    cases f with
    | step j t =>
      by_cases h : j = i + 1 <;> simp [leaving, loopFactors, h]
    | loop a b t =>
      by_cases h : a = i
      · by_cases h2 : b = i + 1 <;> simp [leaving, loopFactors, h, h2, IsFarLoop]
      · simp [leaving, loopFactors, h]
    | _ => simp [leaving, loopFactors]

theorem leaving_step {i : Nat} {t : T} {l : List (IsamFactor T E)}
    (h : (i + 1, t) ∈ stepFactors l) : (i + 1, t) ∈ leaving i l := by
  unfold stepFactors at h
  obtain ⟨f, hf, he⟩ := List.mem_filterMap.mp h
  refine List.mem_filterMap.mpr ⟨f, hf, ?_⟩
  cases f with
  | step j u =>
    simp only [Option.some.injEq, Prod.mk.injEq] at he
    simp [he.1, he.2]
  | _ => cases he

theorem stepsOf_mem (fs : List (IsamFrame T E)) : ∀ (k i : Nat), i ≠ 0 → k ≤ i → i < k + fs.length →
    ∃ t, (i, t) ∈ stepsOf k fs := by
  induction fs with
  | nil => intro k i _ h1 h2; simp at h2; omega
  | cons f fs ih =>
    intro k i h0 h1 h2
    rw [stepsOf]
    by_cases e : k = i
    · exact ⟨f.fromLast, by simp [e, h0]⟩
    · obtain ⟨t, ht⟩ := ih (k + 1) i h0 (by omega) (by simp at h2; omega)
      exact ⟨t, List.mem_append_right _ ht⟩

theorem edgesValid_bound (fs : List (IsamFrame T E)) : ∀ k, EdgesValid k fs →
    ∀ e ∈ fs.flatMap (fun f => f.edges), e.1 < e.2.1 ∧ e.2.1 < k + fs.length := by
  induction fs with
  | nil => intro k _ e he; simp at he
  | cons f fs ih =>
    intro k h e he
    rw [List.flatMap_cons, List.mem_append] at he
    rcases he with he | he
    · have := h.1 e he
      simp only [List.length_cons]
      omega
    · have := ih (k + 1) h.2 e he
      simp only [List.length_cons]
      omega

theorem length_le_one_mem {A : Type} {l : List A} (h : l.length ≤ 1) {a b : A} (ha : a ∈ l)
    (hb : b ∈ l) : a = b := by
  match l, h with
  | [x], _ =>
    rw [List.mem_singleton] at ha hb
    rw [ha, hb]

/-- The items of the exported graph, one by one. -/
theorem exported_items (o : IsamOpts) {fs : List (IsamFrame T E)} {st : IsamState T E}
    (hd : IsamDone o fs st) {f : IsamFrame T E} (hf : fs.getLast? = some f)
    (pos : T → Rat × Rat) (big tiny : Rat) :
    (vgRun pos big tiny st.graph).items = (List.range fs.length).map fun (i : Nat) =>
      ((i : Int), (⟨f.estimate i, (leaving i st.doneF).map fun (c : Nat × T) => ((c.1 : Int), c.2)⟩ :
        VgItem T)) := by
  have hs : VgSorted ((List.range fs.length).map fun (i : Nat) =>
      ((i : Int), (⟨f.estimate i, (leaving i st.doneF).map fun (c : Nat × T) => ((c.1 : Int), c.2)⟩ :
        VgItem T))) := by
    refine List.pairwise_map.mpr ?_
    refine (List.pairwise_lt_range (n := fs.length)).imp ?_
    intro a b h
    simp only
    omega
  refine vgItems_ext (vgRun_items pos big tiny st.graph).1 hs ?_
  intro j
  rw [(vgRun_items pos big tiny st.graph).2]
  by_cases hj : ∃ i < fs.length, j = (i : Int)
  · obtain ⟨i, hi, rfl⟩ := hj
    rw [vgFind_of_mem hs (i := (i : Int)) (List.mem_map.mpr ⟨i, List.mem_range.mpr hi, rfl⟩)]
    obtain ⟨p, hp, f', hf', rfl⟩ := hd.graphV i (by rw [hd.frames]; exact hi)
    rw [hf] at hf'
    cases hf'
    unfold specItem
    rw [hp, hd.graphE]
    rfl
  · push Not at hj
    unfold specItem
    rw [hd.graphN j (by rw [hd.frames]; exact hj)]
    cases hv : vgFind j _ with
    | none => rfl
    | some it =>
      have := vgFind_mem hv
      obtain ⟨i, hi, he⟩ := List.mem_map.mp this
      simp only [Prod.mk.injEq] at he
      exact absurd he.1.symm (hj i (List.mem_range.mp hi))

end
end Verif
