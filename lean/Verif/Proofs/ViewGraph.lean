import Verif.Spec.ViewGraph
import Mathlib.Data.List.Induction
import Mathlib.Tactic.Linarith
import Mathlib.Tactic.FieldSimp
import Mathlib.Algebra.Order.Floor.Ring
import Mathlib.Data.Rat.Floor
/-! Proofs for C40. -/
namespace Verif
open Spec
variable {P : Type}

/-- Indices strictly increase. -/
def VgSorted (l : List (Int × VgItem P)) : Prop := l.Pairwise fun a b => a.1 < b.1

theorem vgFind_none_of_lt {i : Int} {l : List (Int × VgItem P)} (h : ∀ x ∈ l, i < x.1) :
    vgFind i l = none := by
  induction l with
  | nil => rfl
  | cons x l ih =>
    obtain ⟨j, it⟩ := x
    have hj := h (j, it) List.mem_cons_self
    simp only at hj
    rw [vgFind, if_neg (by omega)]
    exact ih fun y hy => h y (List.mem_cons_of_mem _ hy)

theorem vgFind_mem {i : Int} {l : List (Int × VgItem P)} {it : VgItem P}
    (h : vgFind i l = some it) : (i, it) ∈ l := by
  induction l with
  | nil => simp [vgFind] at h
  | cons x l ih =>
    obtain ⟨j, jt⟩ := x
    rw [vgFind] at h
    by_cases e : i = j
    · rw [if_pos e, Option.some.injEq] at h
      subst h; subst e; exact List.mem_cons_self
    · rw [if_neg e] at h
      exact List.mem_cons_of_mem _ (ih h)

theorem vgFind_of_mem {i : Int} {l : List (Int × VgItem P)} {it : VgItem P} (hs : VgSorted l)
    (h : (i, it) ∈ l) : vgFind i l = some it := by
  induction l with
  | nil => cases h
  | cons x l ih =>
    obtain ⟨j, jt⟩ := x
    have hs' := List.pairwise_cons.mp hs
    rw [vgFind]
    rcases List.mem_cons.mp h with h | h
    · rw [Prod.mk.injEq] at h
      rw [if_pos h.1, h.2]
    · have := hs'.1 _ h
      simp only at this
      rw [if_neg (by omega)]
      exact ih hs'.2 h

theorem vgSetPose_mem {i : Int} {p : P} {l : List (Int × VgItem P)} {x : Int × VgItem P}
    (h : x ∈ vgSetPose i p l) : x.1 = i ∨ x ∈ l := by
  induction l with
  | nil =>
    rw [vgSetPose, List.mem_singleton] at h
    left; rw [h]
  | cons y l ih =>
    obtain ⟨j, jt⟩ := y
    rw [vgSetPose] at h
    split at h
    · rcases List.mem_cons.mp h with h | h
      · left; rw [h]
      · right; exact h
    · split at h
      · rename_i e
        rcases List.mem_cons.mp h with h | h
        · left; rw [h]; exact e.symm
        · right; exact List.mem_cons_of_mem _ h
      · rcases List.mem_cons.mp h with h | h
        · right; rw [h]; exact List.mem_cons_self
        · rcases ih h with h | h
          · left; exact h
          · right; exact List.mem_cons_of_mem _ h

theorem vgSetPose_sorted {i : Int} {p : P} {l : List (Int × VgItem P)} (hs : VgSorted l) :
    VgSorted (vgSetPose i p l) := by
  induction l with
  | nil => simp [vgSetPose, VgSorted]
  | cons y l ih =>
    obtain ⟨j, jt⟩ := y
    have hs' := List.pairwise_cons.mp hs
    rw [vgSetPose]
    split
    · rename_i h
      refine List.pairwise_cons.mpr ⟨?_, hs⟩
      intro x hx
      rcases List.mem_cons.mp hx with rfl | hx
      · exact h
      · have := hs'.1 x hx
        simp only at this ⊢
        omega
    · split
      · exact List.pairwise_cons.mpr ⟨hs'.1, hs'.2⟩
      · refine List.pairwise_cons.mpr ⟨?_, ih hs'.2⟩
        intro x hx
        rcases vgSetPose_mem hx with h | h
        · simp only
          omega
        · exact hs'.1 x h

theorem vgFind_setPose {i k : Int} {p : P} {l : List (Int × VgItem P)} (hs : VgSorted l) :
    vgFind k (vgSetPose i p l) =
      if k = i then some ⟨p, ((vgFind i l).map VgItem.conns).getD []⟩ else vgFind k l := by
  induction l with
  | nil => simp [vgSetPose, vgFind]
  | cons y l ih =>
    obtain ⟨j, jt⟩ := y
    have hs' := List.pairwise_cons.mp hs
    rw [vgSetPose]
    split
    · rename_i h
      have hn : vgFind i ((j, jt) :: l) = none := by
        apply vgFind_none_of_lt
        intro x hx
        rcases List.mem_cons.mp hx with rfl | hx
        · exact h
        · have := hs'.1 x hx
          simp only at this
          omega
      rw [hn, vgFind]
      rfl
    · split
      · rename_i h1 h2
        subst h2
        by_cases e : k = i
        · subst e
          simp [vgFind]
        · simp [vgFind, e]
      · rename_i h1 h2
        rw [vgFind, ih hs'.2]
        by_cases e : k = i
        · subst e
          simp [vgFind, h2]
        · simp only [vgFind, e, if_false]

theorem vgPush_keys (a : Int) (c : Int × P) (l : List (Int × VgItem P)) :
    (vgPush a c l).map Prod.fst = l.map Prod.fst := by
  induction l with
  | nil => rfl
  | cons y l ih =>
    obtain ⟨j, jt⟩ := y
    rw [vgPush]
    split
    · rfl
    · simp [ih]

theorem vgSorted_iff_keys (l : List (Int × VgItem P)) :
    VgSorted l ↔ (l.map Prod.fst).Pairwise (· < ·) := by
  rw [List.pairwise_map]; rfl

theorem vgPush_sorted {a : Int} {c : Int × P} {l : List (Int × VgItem P)} (hs : VgSorted l) :
    VgSorted (vgPush a c l) := by
  rw [vgSorted_iff_keys, vgPush_keys, ← vgSorted_iff_keys]
  exact hs

theorem vgFind_push {a k : Int} {c : Int × P} (l : List (Int × VgItem P)) :
    vgFind k (vgPush a c l) =
      if k = a then (vgFind a l).map (fun it => ⟨it.pose, it.conns ++ [c]⟩) else vgFind k l := by
  induction l with
  | nil => simp [vgPush, vgFind]
  | cons y l ih =>
    obtain ⟨j, jt⟩ := y
    rw [vgPush]
    by_cases e : a = j
    · subst e
      rw [if_pos rfl]
      by_cases e2 : k = a
      · subst e2; simp [vgFind]
      · simp [vgFind, e2]
    · rw [if_neg e, vgFind, ih]
      by_cases e2 : k = a
      · subst e2; simp [vgFind, e]
      · simp only [vgFind, e2, if_false]

/-! The specification functions on a history extended by one call. -/

theorem posesOf_append (i : Int) (l m : List (VgOp P)) :
    posesOf i (l ++ m) = posesOf i l ++ posesOf i m := by
  induction l with
  | nil => rfl
  | cons op l ih =>
    cases op with
    | vertex j p =>
      simp only [List.cons_append, posesOf]
      split <;> simp [ih]
    | edge a b t => exact ih
    | image => exact ih

theorem positions_append (pos : P → Rat × Rat) (l m : List (VgOp P)) :
    positions pos (l ++ m) = positions pos l ++ positions pos m := by
  induction l with
  | nil => rfl
  | cons op l ih =>
    cases op with
    | vertex j p => simp [positions, ih]
    | edge a b t => exact ih
    | image => exact ih

theorem keptFrom_append (a : Int) (past l m : List (VgOp P)) :
    keptFrom a past (l ++ m) = keptFrom a past l ++ keptFrom a (past ++ l) m := by
  induction l generalizing past with
  | nil => simp [keptFrom]
  | cons op l ih =>
    cases op with
    | vertex j p => simp [keptFrom, ih]
    | edge x b t => simp only [List.cons_append, keptFrom, ih, List.append_assoc]; rfl
    | image => simp [keptFrom, ih]

/-- What the graph should say about `i` after a history. -/
def specItem (ops : List (VgOp P)) (i : Int) : Option (VgItem P) :=
  ((posesOf i ops).getLast?).map fun p => ⟨p, keptFrom i [] ops⟩

theorem specItem_isNone (ops : List (VgOp P)) (i : Int) :
    (specItem ops i).isNone = true ↔ posesOf i ops = [] := by
  simp [specItem]

theorem kept_nil_of_no_pose {ops : List (VgOp P)} {i : Int} (h : posesOf i ops = []) :
    keptFrom i [] ops = [] := by
  induction ops using List.reverseRecOn with
  | nil => rfl
  | append_singleton l op ih =>
    rw [posesOf_append, List.append_eq_nil_iff] at h
    rw [keptFrom_append, ih h.1]
    cases op with
    | vertex j p => rfl
    | edge x b t => simp [keptFrom, h.1]
    | image => rfl

theorem vgRun_snoc (pos : P → Rat × Rat) (big tiny : Rat) (l : List (VgOp P)) (op : VgOp P) :
    vgRun pos big tiny (l ++ [op]) = (vgRun pos big tiny l).step pos op := by
  simp [vgRun, List.foldl_append]

theorem vgRun_items (pos : P → Rat × Rat) (big tiny : Rat) (ops : List (VgOp P)) :
    VgSorted (vgRun pos big tiny ops).items ∧
      ∀ i, vgFind i (vgRun pos big tiny ops).items = specItem ops i := by
  induction ops using List.reverseRecOn with
  | nil => exact ⟨List.Pairwise.nil, fun i => rfl⟩
  | append_singleton l op ih =>
    obtain ⟨h1, h2⟩ := ih
    rw [vgRun_snoc]
    cases op with
    | vertex j p =>
      refine ⟨vgSetPose_sorted h1, fun i => ?_⟩
      show vgFind i (vgSetPose j p (vgRun pos big tiny l).items) = _
      rw [vgFind_setPose h1, h2, h2]
      unfold specItem
      rw [posesOf_append, keptFrom_append]
      by_cases e : i = j
      · subst e
        simp only [posesOf, if_true, keptFrom, List.append_nil]
        simp only [List.getLast?_append, List.getLast?_singleton, Option.some_or, Option.map_some,
          Option.map_map]
        congr 1
        congr 1
        cases hl : (posesOf i l).getLast? with
        | none =>
          rw [List.getLast?_eq_none_iff] at hl
          rw [kept_nil_of_no_pose hl]
          rfl
        | some q => rfl
      · have e' : ¬ j = i := fun h => e h.symm
        simp only [posesOf, if_neg e', if_neg e, keptFrom, List.append_nil]
    | edge x b t =>
      show VgSorted ((vgRun pos big tiny l).addEdge x b t).items ∧ ∀ i,
        vgFind i ((vgRun pos big tiny l).addEdge x b t).items = _
      unfold ViewGraph.addEdge
      rw [h2, h2]
      by_cases hc : ((specItem l x).isNone || (specItem l b).isNone) = true
      · rw [if_pos hc]
        refine ⟨h1, fun i => ?_⟩
        rw [h2]
        unfold specItem
        rw [posesOf_append, keptFrom_append]
        rw [Bool.or_eq_true, specItem_isNone, specItem_isNone] at hc
        have : keptFrom i ([] ++ l) [VgOp.edge x b t] = [] := by
          simp only [List.nil_append, keptFrom, List.append_nil]
          rw [if_neg]
          rintro ⟨rfl, ha, hb⟩
          rcases hc with hc | hc
          · exact ha hc
          · exact hb hc
        rw [this]
        simp [posesOf]
      · rw [if_neg hc]
        refine ⟨vgPush_sorted h1, fun i => ?_⟩
        show vgFind i (vgPush x (b, t) (vgRun pos big tiny l).items) = _
        rw [vgFind_push, h2, h2]
        rw [Bool.or_eq_true, specItem_isNone, specItem_isNone, not_or] at hc
        unfold specItem
        rw [posesOf_append, keptFrom_append]
        by_cases e : i = x
        · subst e
          rw [if_pos rfl]
          simp only [List.nil_append, posesOf, keptFrom, List.append_nil]
          rw [if_pos ⟨trivial, hc.1, hc.2⟩, Option.map_map]
          rfl
        · rw [if_neg e]
          have e' : ¬ x = i := fun h => e h.symm
          simp only [List.nil_append, posesOf, keptFrom, List.append_nil]
          rw [if_neg (fun h => e' h.1), List.append_nil]
    | image =>
      have hw : ((vgRun pos big tiny l).step pos VgOp.image).items = (vgRun pos big tiny l).items := by
        simp only [ViewGraph.step, ViewGraph.widen]
        split <;> rfl
      rw [hw]
      refine ⟨h1, fun i => ?_⟩
      rw [h2]
      unfold specItem
      rw [posesOf_append, keptFrom_append]
      simp [posesOf, keptFrom]

/-! The box. -/

/-- The box holds every position. -/
def VgHolds (pos : P → Rat × Rat) (g : ViewGraph P) (ops : List (VgOp P)) : Prop :=
  ∀ q ∈ positions pos ops,
    g.minB.1 ≤ q.1 ∧ g.minB.2 ≤ q.2 ∧ q.1 ≤ g.maxB.1 ∧ q.2 ≤ g.maxB.2

theorem vgRun_holds (pos : P → Rat × Rat) (big tiny : Rat) (ops : List (VgOp P)) :
    VgHolds pos (vgRun pos big tiny ops) ops := by
  induction ops using List.reverseRecOn with
  | nil => intro q hq; cases hq
  | append_singleton l op ih =>
    rw [vgRun_snoc]
    intro q hq
    rw [positions_append, List.mem_append] at hq
    cases op with
    | vertex j p =>
      simp only [ViewGraph.step, ViewGraph.addVertex]
      rcases hq with hq | hq
      · obtain ⟨a, b, c, d⟩ := ih q hq
        refine ⟨?_, ?_, ?_, ?_⟩ <;> split <;> linarith
      · simp only [positions, List.mem_singleton] at hq
        subst hq
        refine ⟨?_, ?_, ?_, ?_⟩ <;> split <;> linarith
    | edge x b t =>
      have hq : q ∈ positions pos l := by simpa [positions] using hq
      simp only [ViewGraph.step, ViewGraph.addEdge]
      split <;> exact ih q hq
    | image =>
      have hq : q ∈ positions pos l := by simpa [positions] using hq
      obtain ⟨a, b, c, d⟩ := ih q hq
      simp only [ViewGraph.step, ViewGraph.widen]
      split
      · exact ⟨a, b, c, d⟩
      · refine ⟨?_, ?_, ?_, ?_⟩ <;> simp only <;> linarith

/-- Without drawing, every bound is an initial value or a coordinate of an inserted position. -/
theorem vgRun_attained (pos : P → Rat × Rat) (big tiny : Rat) (ops : List (VgOp P))
    (hn : ∀ op ∈ ops, op ≠ VgOp.image) :
    let g := vgRun pos big tiny ops
    (g.minB.1 = big ∨ ∃ q ∈ positions pos ops, q.1 = g.minB.1) ∧
    (g.minB.2 = big ∨ ∃ q ∈ positions pos ops, q.2 = g.minB.2) ∧
    (g.maxB.1 = tiny ∨ ∃ q ∈ positions pos ops, q.1 = g.maxB.1) ∧
    (g.maxB.2 = tiny ∨ ∃ q ∈ positions pos ops, q.2 = g.maxB.2) ∧
    g.minB.1 ≤ big ∧ g.minB.2 ≤ big ∧ tiny ≤ g.maxB.1 ∧ tiny ≤ g.maxB.2 := by
  induction ops using List.reverseRecOn with
  | nil => simp [vgRun, vgInit]
  | append_singleton l op ih =>
    have ih := ih fun o ho => hn o (List.mem_append_left _ ho)
    have ho := hn op (by simp)
    simp only [vgRun_snoc]
    obtain ⟨a, b, c, d, e, f, u, v⟩ := ih
    cases op with
    | vertex j p =>
      simp only [ViewGraph.step, ViewGraph.addVertex]
      have new : pos p ∈ positions pos (l ++ [VgOp.vertex j p]) := by
        rw [positions_append]; simp [positions]
      have old : ∀ q ∈ positions pos l, q ∈ positions pos (l ++ [VgOp.vertex j p]) := by
        intro q hq; rw [positions_append]; exact List.mem_append_left _ hq
      refine ⟨?_, ?_, ?_, ?_, ?_, ?_, ?_, ?_⟩
      · split
        · exact Or.inr ⟨_, new, rfl⟩
        · rcases a with a | ⟨q, hq, a⟩
          · exact Or.inl a
          · exact Or.inr ⟨q, old q hq, a⟩
      · split
        · exact Or.inr ⟨_, new, rfl⟩
        · rcases b with a | ⟨q, hq, a⟩
          · exact Or.inl a
          · exact Or.inr ⟨q, old q hq, a⟩
      · split
        · exact Or.inr ⟨_, new, rfl⟩
        · rcases c with a | ⟨q, hq, a⟩
          · exact Or.inl a
          · exact Or.inr ⟨q, old q hq, a⟩
      · split
        · exact Or.inr ⟨_, new, rfl⟩
        · rcases d with a | ⟨q, hq, a⟩
          · exact Or.inl a
          · exact Or.inr ⟨q, old q hq, a⟩
      all_goals split <;> linarith
    | edge x y t =>
      have hp : positions pos (l ++ [VgOp.edge x y t]) = positions pos l := by
        rw [positions_append]; simp [positions]
      rw [hp]
      simp only [ViewGraph.step, ViewGraph.addEdge]
      split <;> exact ⟨a, b, c, d, e, f, u, v⟩
    | image => exact absurd rfl ho

theorem trunc_step {a b : Rat} (ha : 0 ≤ a) (h : a + 1 ≤ b) :
    0 ≤ truncInt a ∧ truncInt a < truncInt b := by
  unfold truncInt
  rw [if_pos ha, if_pos (by linarith)]
  refine ⟨Int.floor_nonneg.mpr ha, ?_⟩
  have h1 : ⌊a⌋ + 1 ≤ ⌊b⌋ := by
    rw [← Int.floor_add_one]
    exact Int.floor_le_floor h
  omega

/-- A position inside the box before widening is drawn inside the image. -/
theorem pixel_inside (pos : P → Rat × Rat) {g : ViewGraph P} {p : P} {res : Rat} (h0 : 0 < res)
    (h1 : res ≤ 1) (hne : g.items.isEmpty = false)
    (hb : g.minB.1 ≤ (pos p).1 ∧ g.minB.2 ≤ (pos p).2 ∧ (pos p).1 ≤ g.maxB.1 ∧ (pos p).2 ≤ g.maxB.2) :
    0 ≤ (g.widen.pixel pos res p).1 ∧ (g.widen.pixel pos res p).1 < (g.widen.imageSize res).1 ∧
    0 ≤ (g.widen.pixel pos res p).2 ∧ (g.widen.pixel pos res p).2 < (g.widen.imageSize res).2 := by
  obtain ⟨a, b, c, d⟩ := hb
  unfold ViewGraph.widen
  simp only [hne, ViewGraph.pixel, ViewGraph.imageSize, Bool.false_eq_true, if_false]
  have key : ∀ u v : Rat, 0 ≤ u → u + 1 ≤ v → 0 ≤ u / res ∧ u / res + 1 ≤ v / res := by
    intro u v hu hv
    refine ⟨div_nonneg hu h0.le, ?_⟩
    rw [le_div_iff₀ h0, add_mul, div_mul_cancel₀ _ h0.ne']
    linarith
  obtain ⟨k1, k2⟩ := key ((pos p).1 - (g.minB.1 - 1)) (g.maxB.1 + 1 - (g.minB.1 - 1))
    (by linarith) (by linarith)
  obtain ⟨k3, k4⟩ := key (g.maxB.2 + 1 - (pos p).2) (g.maxB.2 + 1 - (g.minB.2 - 1))
    (by linarith) (by linarith)
  exact ⟨(trunc_step k1 k2).1, (trunc_step k1 k2).2, (trunc_step k3 k4).1, (trunc_step k3 k4).2⟩

theorem posesOf_positions (pos : P → Rat × Rat) {i : Int} {p : P} {ops : List (VgOp P)}
    (h : p ∈ posesOf i ops) : pos p ∈ positions pos ops := by
  induction ops with
  | nil => cases h
  | cons op l ih =>
    cases op with
    | vertex j q =>
      simp only [posesOf] at h
      split at h
      · rcases List.mem_cons.mp h with rfl | h
        · exact List.mem_cons_self
        · exact List.mem_cons_of_mem _ (ih h)
      · exact List.mem_cons_of_mem _ (ih h)
    | edge a b t => exact ih h
    | image => exact ih h

/-- Ends of kept edges have been inserted. -/
theorem kept_ends {a : Int} {ops : List (VgOp P)} {c : Int × P} (h : c ∈ keptFrom a [] ops) :
    posesOf a ops ≠ [] ∧ posesOf c.1 ops ≠ [] := by
  induction ops using List.reverseRecOn with
  | nil => cases h
  | append_singleton l op ih =>
    rw [keptFrom_append, List.mem_append] at h
    rw [posesOf_append, posesOf_append]
    have grow : posesOf a l ≠ [] ∧ posesOf c.1 l ≠ [] →
        posesOf a l ++ posesOf a [op] ≠ [] ∧ posesOf c.1 l ++ posesOf c.1 [op] ≠ [] := by
      rintro ⟨x, y⟩
      exact ⟨fun h => x (List.append_eq_nil_iff.mp h).1, fun h => y (List.append_eq_nil_iff.mp h).1⟩
    rcases h with h | h
    · exact grow (ih h)
    · cases op with
      | vertex j p => cases h
      | image => cases h
      | edge x b t =>
        simp only [List.nil_append, keptFrom, List.append_nil] at h
        split at h
        · rename_i hc
          rw [List.mem_singleton] at h
          subst h
          exact grow ⟨hc.2.1, hc.2.2⟩
        · cases h

end Verif
