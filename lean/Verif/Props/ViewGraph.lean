import Verif.Proofs.ViewGraph
/-!
C40: the view graph.

English: after any sequence of vertex and edge insertions every edge of the view graph joins two
existing vertices, vertex insertion never drops edges, an edge is ignored exactly when an end point
is missing, and the reported bounding box is the smallest box containing all vertex positions ever
inserted.

`Spec.posesOf i ops` are the poses given to vertex `i`, `Spec.keptFrom i [] ops` the edges leaving
`i` that were given when both ends had already been inserted.
-/
namespace Verif
open Spec
variable {P : Type}

/-- The graph read back: vertex `i` is there iff it was inserted, has its last pose, and exactly the
edges given while both ends existed, in order. -/
theorem C40_contents (pos : P → Rat × Rat) (big tiny : Rat) (ops : List (VgOp P)) (i : Int) :
    (posesOf i ops = [] → vgFind i (vgRun pos big tiny ops).items = none) ∧
    (∀ p, (posesOf i ops).getLast? = some p →
      vgFind i (vgRun pos big tiny ops).items = some ⟨p, keptFrom i [] ops⟩) := by
  rw [(vgRun_items pos big tiny ops).2 i]
  unfold specItem
  constructor
  · intro h; rw [h]; rfl
  · intro p h; rw [h]; rfl

/-- The map lists each vertex once, in increasing order of index. -/
theorem C40_sorted (pos : P → Rat × Rat) (big tiny : Rat) (ops : List (VgOp P)) :
    (vgRun pos big tiny ops).items.Pairwise fun a b => a.1 < b.1 :=
  (vgRun_items pos big tiny ops).1

/-- Every edge joins two vertices of the graph. -/
theorem C40_no_dangling (pos : P → Rat × Rat) (big tiny : Rat) (ops : List (VgOp P)) :
    ∀ v ∈ (vgRun pos big tiny ops).items, ∀ c ∈ v.2.conns,
      ∃ w ∈ (vgRun pos big tiny ops).items, w.1 = c.1 := by
  intro v hv c hc
  have hf := vgFind_of_mem (vgRun_items pos big tiny ops).1 (i := v.1) (it := v.2) hv
  rw [(vgRun_items pos big tiny ops).2] at hf
  unfold specItem at hf
  rw [Option.map_eq_some_iff] at hf
  obtain ⟨p, _, he⟩ := hf
  rw [← he] at hc
  have hne := (kept_ends hc).2
  obtain ⟨q, hq⟩ : ∃ q, (posesOf c.1 ops).getLast? = some q := by
    cases h : (posesOf c.1 ops).getLast? with
    | none => exact absurd (List.getLast?_eq_none_iff.mp h) hne
    | some q => exact ⟨q, rfl⟩
  exact ⟨_, vgFind_mem ((C40_contents pos big tiny ops c.1).2 q hq), rfl⟩

/-- Inserting or updating a vertex keeps every edge of every vertex. -/
theorem C40_vertex_keeps_edges (pos : P → Rat × Rat) (big tiny : Rat) (ops : List (VgOp P))
    (j : Int) (q : P) : ∀ v ∈ (vgRun pos big tiny ops).items,
      ∃ w ∈ (vgRun pos big tiny (ops ++ [.vertex j q])).items, w.1 = v.1 ∧ w.2.conns = v.2.conns := by
  intro v hv
  have hf := vgFind_of_mem (vgRun_items pos big tiny ops).1 (i := v.1) (it := v.2) hv
  have hs := vgFind_setPose (i := j) (k := v.1) (p := q) (vgRun_items pos big tiny ops).1
  rw [vgRun_snoc]
  show ∃ w ∈ vgSetPose j q (vgRun pos big tiny ops).items, _
  by_cases e : v.1 = j
  · rw [if_pos e, ← e, hf] at hs
    rw [← e]
    exact ⟨_, vgFind_mem hs, rfl, rfl⟩
  · rw [if_neg e, hf] at hs
    exact ⟨_, vgFind_mem hs, rfl, rfl⟩

/-- An edge changes nothing exactly when an end is missing; otherwise it adds one connection. -/
theorem C40_edge (pos : P → Rat × Rat) (big tiny : Rat) (ops : List (VgOp P)) (a b : Int) (t : P) :
    ((posesOf a ops = [] ∨ posesOf b ops = []) →
      vgRun pos big tiny (ops ++ [.edge a b t]) = vgRun pos big tiny ops) ∧
    (posesOf a ops ≠ [] → posesOf b ops ≠ [] →
      keptFrom a [] (ops ++ [.edge a b t]) = keptFrom a [] ops ++ [(b, t)]) := by
  constructor
  · intro h
    rw [vgRun_snoc]
    show (vgRun pos big tiny ops).addEdge a b t = _
    unfold ViewGraph.addEdge
    rw [(vgRun_items pos big tiny ops).2, (vgRun_items pos big tiny ops).2, if_pos]
    rw [Bool.or_eq_true, specItem_isNone, specItem_isNone]
    exact h
  · intro ha hb
    rw [keptFrom_append]
    simp only [List.nil_append, keptFrom, List.append_nil]
    rw [if_pos ⟨trivial, ha, hb⟩]

/-- The box holds every position ever inserted, drawings included. -/
theorem C40_box_holds (pos : P → Rat × Rat) (big tiny : Rat) (ops : List (VgOp P)) :
    ∀ q ∈ positions pos ops,
      (vgRun pos big tiny ops).minB.1 ≤ q.1 ∧ (vgRun pos big tiny ops).minB.2 ≤ q.2 ∧
      q.1 ≤ (vgRun pos big tiny ops).maxB.1 ∧ q.2 ≤ (vgRun pos big tiny ops).maxB.2 :=
  vgRun_holds pos big tiny ops

/-- Smallest box: each lower bound is attained; each upper bound is attained provided some position
reaches the initial value `tiny` of that bound.  Missing: maps whose coordinates are all negative
(`C40_box_negative_fails`) and histories with drawings (`C40_box_image_fails`). -/
theorem C40_box_smallest_partial (pos : P → Rat × Rat) {big tiny : Rat} {ops : List (VgOp P)}
    (hn : ∀ op ∈ ops, op ≠ VgOp.image) (hne : positions pos ops ≠ [])
    (hbig : ∀ q ∈ positions pos ops, q.1 < big ∧ q.2 < big) :
    (∃ q ∈ positions pos ops, q.1 = (vgRun pos big tiny ops).minB.1) ∧
    (∃ q ∈ positions pos ops, q.2 = (vgRun pos big tiny ops).minB.2) ∧
    ((∃ q ∈ positions pos ops, tiny < q.1) →
      ∃ q ∈ positions pos ops, q.1 = (vgRun pos big tiny ops).maxB.1) ∧
    ((∃ q ∈ positions pos ops, tiny < q.2) →
      ∃ q ∈ positions pos ops, q.2 = (vgRun pos big tiny ops).maxB.2) := by
  obtain ⟨a, b, c, d, _⟩ := vgRun_attained pos big tiny ops hn
  have hh := vgRun_holds pos big tiny ops
  obtain ⟨q0, hq0⟩ := List.exists_mem_of_ne_nil _ hne
  refine ⟨?_, ?_, ?_, ?_⟩
  · refine a.resolve_left fun e => ?_
    have h1 := (hh q0 hq0).1
    have h2 := (hbig q0 hq0).1
    linarith
  · refine b.resolve_left fun e => ?_
    have h1 := (hh q0 hq0).2.1
    have h2 := (hbig q0 hq0).2
    linarith
  · rintro ⟨q, hq, h⟩
    refine c.resolve_left fun e => ?_
    have h1 := (hh q hq).2.2.1
    linarith
  · rintro ⟨q, hq, h⟩
    refine d.resolve_left fun e => ?_
    have h1 := (hh q hq).2.2.2
    linarith

/-- Drawn at a resolution of at most one metre per pixel, both ends of every edge exist and lie
inside the image. -/
theorem C40_drawing (pos : P → Rat × Rat) (big tiny : Rat) (ops : List (VgOp P)) {res : Rat}
    (h0 : 0 < res) (h1 : res ≤ 1) :
    let g := vgRun pos big tiny (ops ++ [.image])
    ∀ ln ∈ g.lines pos res, ∃ q, ln.2.1 = some q ∧ ∀ x ∈ [ln.1, q],
      0 ≤ x.1 ∧ x.1 < (g.imageSize res).1 ∧ 0 ≤ x.2 ∧ x.2 < (g.imageSize res).2 := by
  intro g ln hln
  have hg : g = (vgRun pos big tiny ops).widen := vgRun_snoc _ _ _ _ _
  have hitems : g.items = (vgRun pos big tiny ops).items := by
    rw [hg]; unfold ViewGraph.widen; split <;> rfl
  simp only [ViewGraph.lines, List.mem_flatMap, List.mem_map] at hln
  obtain ⟨v, hv, c, hc, rfl⟩ := hln
  rw [hitems] at hv
  have hne : (vgRun pos big tiny ops).items.isEmpty = false := by
    cases h : (vgRun pos big tiny ops).items with
    | nil => rw [h] at hv; cases hv
    | cons x l => rfl
  have inside : ∀ w ∈ (vgRun pos big tiny ops).items,
      0 ≤ (g.pixel pos res w.2.pose).1 ∧ (g.pixel pos res w.2.pose).1 < (g.imageSize res).1 ∧
      0 ≤ (g.pixel pos res w.2.pose).2 ∧ (g.pixel pos res w.2.pose).2 < (g.imageSize res).2 := by
    intro w hw
    have hf := vgFind_of_mem (vgRun_items pos big tiny ops).1 (i := w.1) (it := w.2) hw
    rw [(vgRun_items pos big tiny ops).2] at hf
    unfold specItem at hf
    rw [Option.map_eq_some_iff] at hf
    obtain ⟨p, hp, he⟩ := hf
    rw [← he, hg]
    exact pixel_inside pos h0 h1 hne
      (vgRun_holds pos big tiny ops _ (posesOf_positions pos (List.mem_of_getLast? hp)))
  obtain ⟨w, hw, hwc⟩ := C40_no_dangling pos big tiny ops v hv c hc
  have hf := vgFind_of_mem (vgRun_items pos big tiny ops).1 (i := w.1) (it := w.2) hw
  refine ⟨g.pixel pos res w.2.pose, ?_, ?_⟩
  · rw [hitems, ← hwc, hf]; rfl
  · intro x hx
    rcases List.mem_cons.mp hx with rfl | hx
    · exact inside v hv
    · rw [List.mem_singleton] at hx
      subst hx
      exact inside w hw

/-- Not the smallest box: with every coordinate negative the upper bound stays at the smallest
positive double (the constructor uses `numeric_limits<double>::min()`). -/
theorem C40_box_negative_fails {big tiny : Rat} (ht : 0 < tiny) :
    ∃ ops : List (VgOp (Rat × Rat)), (∀ op ∈ ops, op ≠ VgOp.image) ∧ positions id ops ≠ [] ∧
      (vgRun id big tiny ops).maxB.1 = tiny ∧ ∀ q ∈ positions id ops, q.1 ≤ -5 := by
  refine ⟨[.vertex 0 (-5, -5)], by simp, by simp [positions], ?_, by simp [positions]⟩
  have h : ¬ tiny < -5 := by linarith
  show (if tiny < -5 then (-5 : Rat) else tiny) = tiny
  exact if_neg h

/-- Drawing changes the box: two drawings of one graph have different sizes. -/
theorem C40_box_image_fails :
    ∃ ops : List (VgOp (Rat × Rat)),
      (vgRun id 1000 0 (ops ++ [.image])).imageSize 1 ≠
        (vgRun id 1000 0 (ops ++ [.image, .image])).imageSize 1 := by
  refine ⟨[.vertex 0 (1, 1)], ?_⟩
  decide +kernel

/-- Instance: an edge to a missing vertex is ignored, one between existing vertices survives the
later update of a vertex; the box is exact; the drawing has one line inside a 4×5 image. -/
example :
    let ops : List (VgOp (Rat × Rat)) :=
      [.vertex 0 (1, 1), .edge 0 1 (9, 9), .vertex 1 (3, 4), .edge 0 1 (2, 3), .vertex 0 (1, 2)]
    keptFrom 0 [] ops = [(1, (2, 3))] ∧ posesOf 0 ops = [(1, 1), (1, 2)] ∧
    (vgRun id 1000 0 ops).minB = (1, 1) ∧ (vgRun id 1000 0 ops).maxB = (3, 4) ∧
    (vgRun id 1000 0 (ops ++ [.image])).lines id 1 = [((1, 3), some (3, 1), true)] ∧
    (vgRun id 1000 0 (ops ++ [.image])).imageSize 1 = (4, 5) := by
  decide +kernel

end Verif
