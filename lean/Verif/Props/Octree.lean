import Verif.Proofs.Octree
/-! Property theorems C07 (cube subdivision) and C08 (octree). -/
namespace Verif
open Spec

/-! ### C07 -/

/-- C07: the index of a point is -1 exactly when the point is outside the closed cube. -/
theorem C07_index_outside (c : Pt) (size : Rat) (p : Pt) :
    (CubeBox.ofCenter c size).subIndex p = -1 ↔ ¬ InCube c (size / 2) p := by
  rw [subIndex_neg, ofCenter_half]
  exact Iff.rfl

/-- C07: subdivision never aborts, gives eight cubes, and the index of a point in the cube
names a sub-cube that contains the point. -/
theorem C07_index_inside (c : Pt) (size : Rat) (p : Pt) (hp : InCube c (size / 2) p) :
    ∃ subs, (CubeBox.ofCenter c size).subBoxes = .ok subs ∧ subs.length = 8 ∧
      ∃ i : Nat, ∃ b, (CubeBox.ofCenter c size).subIndex p = (i : Int) ∧
        subs[i]? = some b ∧ b.contains p = true := by
  refine ⟨_, subBoxes_eq rfl, rfl, ?_⟩
  obtain ⟨i, h1, h2⟩ := subIndex_sub (b := CubeBox.ofCenter c size) p (by
    rw [ofCenter_half]; exact hp)
  refine ⟨i.val, subBox _ i, h1, ?_, (contains_iff p).2 h2⟩
  fin_cases i <;> rfl

/-- C07: every sub-cube has half the edge length and lies inside the cube; the sub-cubes
cover the cube; different sub-cubes have disjoint interiors. -/
theorem C07_partition (c : Pt) (size : Rat) (hs : 0 ≤ size) :
    ∃ subs, (CubeBox.ofCenter c size).subBoxes = .ok subs ∧ subs.length = 8 ∧
      (∀ b ∈ subs, b.size = size / 2 ∧ ∀ p, InCube b.center (b.size / 2) p → InCube c (size / 2) p) ∧
      (∀ p, InCube c (size / 2) p → ∃ b ∈ subs, InCube b.center (b.size / 2) p) ∧
      (∀ (i j : Nat) b b' p, subs[i]? = some b → subs[j]? = some b' →
        InsideCube b.center (b.size / 2) p → InsideCube b'.center (b'.size / 2) p → i = j) := by
  have hh : (CubeBox.ofCenter c size).half = size / 2 := ofCenter_half c size
  refine ⟨_, subBoxes_eq rfl, rfl, ?_, ?_, ?_⟩
  · intro b hb
    have : ∃ i, b = subBox (CubeBox.ofCenter c size) i := by
      simp only [List.mem_cons, List.not_mem_nil, or_false] at hb
      rcases hb with h | h | h | h | h | h | h | h <;> exact ⟨_, h⟩
    obtain ⟨i, rfl⟩ := this
    refine ⟨hh, ?_⟩
    intro p hp
    rw [← wf_half (subBox_wf _ i)] at hp
    have := subBox_subset i p (by rw [hh]; linarith) hp
    rwa [hh] at this
  · intro p hp
    obtain ⟨i, h1, h2⟩ := subIndex_sub (b := CubeBox.ofCenter c size) p (by rw [hh]; exact hp)
    refine ⟨subBox (CubeBox.ofCenter c size) i, ?_, ?_⟩
    · fin_cases i <;> simp
    · rw [← wf_half (subBox_wf _ i)]; exact h2
  · intro i j b b' p hb hb' hi hj
    have key : ∀ (k : Nat) b, [subBox (CubeBox.ofCenter c size) 0, subBox (CubeBox.ofCenter c size) 1,
        subBox (CubeBox.ofCenter c size) 2, subBox (CubeBox.ofCenter c size) 3,
        subBox (CubeBox.ofCenter c size) 4, subBox (CubeBox.ofCenter c size) 5,
        subBox (CubeBox.ofCenter c size) 6, subBox (CubeBox.ofCenter c size) 7][k]? = some b →
        ∃ f : Fin 8, f.val = k ∧ b = subBox (CubeBox.ofCenter c size) f := by
      intro k b hk
      obtain ⟨h1, h2⟩ := List.getElem?_eq_some_iff.mp hk
      simp only [List.length_cons, List.length_nil] at h1
      refine ⟨⟨k, by omega⟩, rfl, ?_⟩
      rw [← h2]
      match k, h1 with
      | 0, _ | 1, _ | 2, _ | 3, _ | 4, _ | 5, _ | 6, _ | 7, _ => rfl
    obtain ⟨f, hf, rfl⟩ := key i b hb
    obtain ⟨g, hg, rfl⟩ := key j b' hb'
    rw [← wf_half (subBox_wf _ f)] at hi
    rw [← wf_half (subBox_wf _ g)] at hj
    rw [← hf, ← hg, subBox_disjoint f g p hi hj]

example : InCube ⟨0,0,0⟩ (2 / 2) ⟨1, 0, -1⟩ ∧
    (CubeBox.ofCenter ⟨0,0,0⟩ 2).subIndex ⟨1, 0, -1⟩ = 4 ∧
    (CubeBox.ofCenter ⟨0,0,0⟩ 2).subIndex ⟨-1/2, 0, 0⟩ = 1 ∧
    (CubeBox.ofCenter ⟨0,0,0⟩ 2).subIndex ⟨-3/2, 0, 0⟩ = -1 := by
  refine ⟨?_, by decide +kernel, by decide +kernel, by decide +kernel⟩
  unfold InCube; norm_num

/-! ### C08 -/

/-- C08: with a non-negative depth limit building terminates normally. -/
theorem C08_build_terminates (cfg : OctreeConfig) (hd : 0 ≤ cfg.maxDepth) (points : List Pt)
    (fuel : Nat) (hf : cfg.maxDepth < fuel) : ∃ root, octInit cfg fuel points = .ok root :=
  octBuild_ok cfg fuel 0 _ points rfl hd (by omega)

/-- C08: no leaf is deeper than the limit, and every leaf is within capacity or at the limit. -/
theorem C08_leaf_bounds (cfg : OctreeConfig) (hd : 0 ≤ cfg.maxDepth) (hn : 0 ≤ cfg.maxNum)
    (points : List Pt) (fuel : Nat) (root : OctNode) (h : octInit cfg fuel points = .ok root) :
    ∀ l ∈ octOutput [root], 0 ≤ l.1 ∧ l.1 ≤ cfg.maxDepth ∧
      (l.1 = cfg.maxDepth ∨ (l.2.2.length : Int) ≤ cfg.maxNum) := by
  intro l hl
  have hl' : l ∈ root.leaves := by simpa using (octOutput_perm [root]).mem_iff.1 hl
  obtain ⟨h1, h2, h3⟩ := octBuild_shape cfg fuel 0 _ points root (ofCenter_wf _ _) hd h l hl'
  refine ⟨h3, h2, h1.imp id ?_⟩
  intro h
  unfold sizeLeMaxNum at h
  rw [if_neg (by omega)] at h
  simpa using h

/-- C08: every input point inside the root cube appears in exactly one leaf of the output, with
its full multiplicity, and that leaf's cube contains it. -/
theorem C08_points_once (cfg : OctreeConfig) (points : List Pt) (fuel : Nat) (root : OctNode)
    (h : octInit cfg fuel points = .ok root) (p : Pt) (hp : p ∈ points)
    (hin : InCube cfg.center (cfg.maxSize / 2) p) :
    (octOutput [root]).countP (fun l => decide (p ∈ l.2.2)) = 1 ∧
      ∀ l ∈ octOutput [root], p ∈ l.2.2 →
        l.2.2.count p = points.count p ∧ InCube l.2.1.center (l.2.1.half) p := by
  have hperm : (octOutput [root]).Perm root.leaves := by simpa using octOutput_perm [root]
  obtain ⟨h1, h2⟩ := octBuild_once cfg fuel 0 _ points root (ofCenter_wf _ _) p hp
    (by rw [ofCenter_half]; exact hin) h
  exact ⟨by rw [hperm.countP_eq]; exact h1, fun l hl => h2 l (hperm.mem_iff.1 hl)⟩

/-- C08: no leaf reports a point that was not in the input. -/
theorem C08_no_invented (cfg : OctreeConfig) (points : List Pt) (fuel : Nat) (root : OctNode)
    (h : octInit cfg fuel points = .ok root) (p : Pt) (hp : p ∉ points) :
    ∀ l ∈ octOutput [root], p ∉ l.2.2 := by
  have hperm : (octOutput [root]).Perm root.leaves := by simpa using octOutput_perm [root]
  exact fun l hl => octBuild_absent cfg fuel 0 _ points root (ofCenter_wf _ _) p hp h l (hperm.mem_iff.1 hl)

/-- C08, "points outside the root cube are in no leaf", for trees whose root was split.
Missing: trees that consist of the root leaf alone, where it is false
(`C08_outside_dropped_fails`). -/
theorem C08_outside_dropped_partial (cfg : OctreeConfig) (points : List Pt) (fuel : Nat)
    (root : OctNode) (h : octInit cfg fuel points = .ok root)
    (hd : cfg.maxDepth ≠ 0) (hn : 0 ≤ cfg.maxNum) (hmany : cfg.maxNum < points.length)
    (p : Pt) (hout : ¬ InCube cfg.center (cfg.maxSize / 2) p) :
    ∀ l ∈ octOutput [root], p ∉ l.2.2 := by
  have hperm : (octOutput [root]).Perm root.leaves := by simpa using octOutput_perm [root]
  refine fun l hl => octBuild_outside cfg fuel 0 _ points root (ofCenter_wf _ _) p ?_
    (by rw [ofCenter_half]; exact hout) h l (hperm.mem_iff.1 hl)
  unfold sizeLeMaxNum
  rw [if_neg (by omega)]
  simp
  omega

/-- C08 fails for few points: a single point far outside the root cube is reported. -/
theorem C08_outside_dropped_fails :
    ∃ (cfg : OctreeConfig) (points : List Pt) (root : OctNode) (p : Pt),
      octInit cfg 16 points = .ok root ∧ ¬ InCube cfg.center (cfg.maxSize / 2) p ∧
      ∃ l ∈ octOutput [root], p ∈ l.2.2 := by
  refine ⟨{ center := ⟨0,0,0⟩ }, [⟨1000,0,0⟩], _, ⟨1000,0,0⟩, rfl, ?_, ?_⟩
  · unfold InCube; norm_num
  · exact ⟨(0, CubeBox.ofCenter ⟨0,0,0⟩ 100, [⟨1000,0,0⟩]), by simp [octOutput], by simp⟩

/-- With a negative depth limit the recursion never ends when more than the allowed number of
points coincide with the root centre: no recursion bound suffices. -/
theorem C08_negative_depth_diverges (cfg : OctreeConfig) (hd : cfg.maxDepth < 0)
    (hn : 0 ≤ cfg.maxNum) (hs : 0 ≤ cfg.maxSize) (k : Nat) (hk : cfg.maxNum < k) (fuel : Nat) :
    octInit cfg fuel (List.replicate k cfg.center) = .ub := by
  -- the copies all move to one child for ever
  have key : ∀ (fuel : Nat) (depth : Int) (box : CubeBox) (p : Pt), box.WF → 0 ≤ depth →
      InCube box.center box.half p → octBuild cfg fuel depth box (List.replicate k p) = .ub := by
    intro fuel
    induction fuel with
    | zero => intros; rfl
    | succ fuel ih =>
      intro depth box p hw h0 hin
      have hl : (depth = cfg.maxDepth || sizeLeMaxNum (List.replicate k p).length cfg.maxNum)
          = false := by
        unfold sizeLeMaxNum
        rw [if_neg (by omega)]
        simp; omega
      obtain ⟨i, hi, hin'⟩ := subIndex_sub p hin
      have hsub : ∀ j : Fin 8, octSub box (List.replicate k p) (j.val : Int)
          = if j = i then List.replicate k p else [] := by
        intro j
        unfold octSub
        split
        · rename_i e; subst e
          rw [List.filter_replicate]; simp [hi]
        · rename_i e
          rw [List.filter_replicate]
          have : ¬ (box.subIndex p = (j.val : Int)) := by
            rw [hi]; intro e'; exact e (Fin.ext (by exact_mod_cast e'.symm))
          simp [this]
      have hub : octBuild cfg fuel (depth+1) (subBox box i) (octSub box (List.replicate k p) (i.val : Int))
          = .ub := by
        rw [hsub i, if_pos rfl]
        exact ih (depth+1) _ p (subBox_wf box i) (by omega) hin'
      -- the result is neither ok (child i diverges) nor abort
      have hno : ∀ n, octBuild cfg (fuel+1) depth box (List.replicate k p) ≠ .ok n := by
        intro n hn'
        obtain ⟨c, hc, _⟩ := octBuild_node hw hl hn'
        have := hc i
        rw [hub] at this
        cases this
      cases hr : octBuild cfg (fuel+1) depth box (List.replicate k p) with
      | ok n => exact absurd hr (hno n)
      | ub => rfl
      | abort => exact absurd hr (octBuild_ne_abort cfg (fuel+1) depth box _ hw)
  refine key fuel 0 _ cfg.center rfl (le_refl _) ?_
  rw [ofCenter_half]
  unfold InCube
  simp only [CubeBox.ofCenter]
  refine ⟨⟨?_, ?_⟩, ⟨?_, ?_⟩, ⟨?_, ?_⟩⟩ <;> linarith

-- a concrete tree that is split: six points, capacity four, three of them coincide
example : (match octInit { center := ⟨0,0,0⟩ } 16
    [⟨1,1,1⟩, ⟨1,1,1⟩, ⟨-1,1,1⟩, ⟨-1,-1,1⟩, ⟨0,0,0⟩, ⟨70,0,0⟩] with
    | .ok root => (octOutput [root]).map (fun l => (l.1, l.2.2.length))
    | _ => []) = [(1,3), (1,1), (1,1), (1,0), (1,0), (1,0), (1,0), (1,0)] := by
  decide +kernel
example : InCube (⟨0,0,0⟩ : Pt) (100 / 2) ⟨1,1,1⟩ := by unfold InCube; norm_num

/-- The bound on the points of a leaf is false with a negative limit: compared as unsigned numbers it is huge, and
every cloud stays in one leaf. -/
theorem C08_negative_limit_fails (cfg : OctreeConfig) (hn : cfg.maxNum < 0) (hi : -2147483648 ≤ cfg.maxNum)
    (points : List Pt) (hp : points.length < 2 ^ 63) (fuel : Nat) :
    octInit cfg (fuel + 1) points = .ok (.leaf 0 (CubeBox.ofCenter cfg.center cfg.maxSize) points) := by
  unfold octInit octBuild
  rw [if_pos]
  unfold sizeLeMaxNum
  rw [if_pos hn]
  simp only [Bool.or_eq_true, decide_eq_true_eq]
  right
  omega

end Verif
