import Verif.Proofs.Normals
/-! Property theorem C14 (normal estimation). -/
namespace Verif
open Spec
variable {P N : Type}

/-- C14: on every non-empty cloud, for every selection behaviour, the estimation ends without
failing a check or leaving array bounds, and its result is described by groups that partition
the point indices, have 1 to 7 members (at least 4 when there are 8 points or more), are
consecutive ranges of the final index permutation, and yield at most one output point each. -/
theorem C14_normals (S : Selection) (E : Estimator P N) (fresh : N) (pts : List P) (h : pts ≠ []) :
    ∃ (groups : List (List Nat)) (st : NormalState P N),
      calculateNormals S E fresh (fromPoints pts) = .ok st ∧
      NormalResult E pts groups st.points st.normals ∧
      (8 ≤ pts.length → ∀ g ∈ groups, 4 ≤ g.length) ∧
      st.indices = groups.flatten := by
  have hn : pts.length ≠ 0 := by simpa using h
  let gs := groupsOf S 0 (List.range pts.length)
  have hperm : gs.flatten.Perm (List.range pts.length) := groupsOf_perm S 0 _
  have hnd : gs.flatten.Nodup := hperm.nodup_iff.2 List.nodup_range
  have hv : ∀ i ∈ gs.flatten, i < pts.length := fun i hi => by
    simpa using hperm.mem_iff.1 hi
  have hr0 : List.range pts.length ≠ [] := by simpa using h
  have hsizes := groupsOf_sizes S 0 (List.range pts.length) hr0
  have hne : ∀ g ∈ gs, g ≠ [] := by
    intro g hg e
    have := (hsizes g hg).1
    rw [e] at this
    simp at this
  obtain ⟨st1, h1, h2, h3, h4, h5⟩ := leaves_spec E gs
    { points := pts, normals := List.replicate pts.length fresh,
      indices := List.range pts.length, toKeep := [] } hne hnd hv (by simp)
  simp only [List.nil_append] at h3 h4 h5
  set acc := accepted E pts gs with hacc
  obtain ⟨hk1, hk2⟩ := accepted_keys E pts gs hnd
  -- the sorted list of accepted groups
  let chosen := acc.mergeSort (fun a b => decide (a.1 ≤ b.1))
  have hchp : chosen.Perm acc := List.mergeSort_perm _ _
  have hmap : chosen.map Prod.fst = (acc.map Prod.fst).mergeSort (fun a b => decide (a ≤ b)) :=
    List.map_mergeSort (by intros; rfl)
  have hsorted : (chosen.map Prod.fst).Pairwise (· ≤ ·) := by
    rw [hmap]
    have := List.pairwise_mergeSort (le := fun a b : Nat => decide (a ≤ b))
      (by simp only [decide_eq_true_eq]; intro a b c; exact Nat.le_trans)
      (by intro a b; simp only [Bool.or_eq_true, decide_eq_true_eq]; exact Nat.le_total a b)
      (acc.map Prod.fst)
    exact this.imp (by simp)
  have hnodup : (chosen.map Prod.fst).Nodup := (hchp.map Prod.fst).nodup_iff.2 hk1
  have hstrict : (chosen.map Prod.fst).Pairwise (· < ·) :=
    (hsorted.and hnodup).imp (fun {a b} ⟨x, y⟩ => Nat.lt_of_le_of_ne x y)
  have hlen1 : st1.points.length = pts.length := by rw [h4, foldl_set_length]
  have hlen2 : st1.normals.length = pts.length := by rw [h5, foldl_set_length]; simp
  have hmemk : ∀ k ∈ chosen.map Prod.fst, k < pts.length := fun k hk =>
    hv k (hk2 k ((hchp.map Prod.fst).mem_iff.1 hk))
  obtain ⟨p', n', c1, c2, c3, -, -, c6⟩ := compactLoop_spec (chosen.map Prod.fst) 0
    st1.points st1.normals (by rw [hlen1, hlen2]) hstrict
    (fun k hk => ⟨Nat.zero_le _, by rw [hlen1]; exact hmemk k hk⟩)
  have hcl : chosen.length ≤ pts.length := by
    have := hnodup.length_le_of_subset (l₂ := List.range pts.length)
      (fun k hk => by simpa using hmemk k hk)
    simpa using this
  have hget : ∀ j (hj : j < chosen.length),
      p'[j]? = some (E.mean chosen[j].2) ∧ n'[j]? = some (E.normal chosen[j].2) := by
    intro j hj
    have := c6 j chosen[j].1 (by simp [hj])
    rw [Nat.zero_add] at this
    have hm : (chosen[j].1, chosen[j].2) ∈ acc := hchp.mem_iff.1 (List.getElem_mem hj)
    have hkl : chosen[j].1 < pts.length := hmemk _ (List.mem_map.2 ⟨_, List.getElem_mem hj, rfl⟩)
    rw [this.1, this.2, h4, h5]
    exact ⟨foldl_set_get E.mean acc pts hk1 _ _ hm hkl,
      foldl_set_get E.normal acc _ hk1 _ _ hm (by simpa using hkl)⟩
  refine ⟨gs, ⟨p'.take chosen.length, n'.take chosen.length, gs.flatten, chosen.map Prod.fst⟩, ?_, ?_, ?_, rfl⟩
  · unfold calculateNormals fromPoints
    simp only [hn, if_false, List.length_range, Nat.lt_irrefl]
    have ht : (List.range pts.length).take pts.length = List.range pts.length := by simp
    rw [ht, buildNormals_eq, h1]
    simp only [Outcome.bind_ok, Outcome.pure_eq]
    rw [h3, ← hmap, c1]
    have hd : List.drop pts.length (List.range pts.length) = [] := by simp
    simp [h2, hd]
    rfl
  · refine ⟨hperm, fun g hg => ⟨(hsizes g hg).1, (hsizes g hg).2.1⟩, chosen, hstrict, ?_, ?_, ?_⟩
    · intro k ps
      rw [hchp.mem_iff]
      exact mem_accepted E pts gs k ps hv
    · apply List.ext_getElem
      · simp [c2, hlen1, hcl]
      · intro j hj1 hj2
        simp at hj2
        have := (hget j hj2).1
        rw [List.getElem?_eq_some_iff] at this
        obtain ⟨hj, e⟩ := this
        simp [e]
    · apply List.ext_getElem
      · simp [c3, hlen2, hcl]
      · intro j hj1 hj2
        simp at hj2
        have := (hget j hj2).2
        rw [List.getElem?_eq_some_iff] at this
        obtain ⟨hj, e⟩ := this
        simp [e]
  · intro h8 g hg
    exact (hsizes g hg).2.2 (by simpa using h8)

/-- C14: an empty cloud is undefined behaviour (minimum of no columns). -/
theorem C14_empty_ub (S : Selection) (E : Estimator P N) (fresh : N) :
    calculateNormals S E fresh (fromPoints []) = .ub := rfl

/-- A selection that reverses every range it is given. -/
def reverseSelection : Selection := ⟨fun _ l => l.reverse, fun _ l => List.reverse_perm l⟩

/-- An estimator that accepts every group (mean = first point of the group, normal = size). -/
def firstEstimator : Estimator Nat Nat := ⟨fun l => l.headD 0, fun _ => true, List.length⟩

theorem reverse_groups8 :
    groupsOf reverseSelection 0 [0,1,2,3,4,5,6,7] = [[7,6,5,4],[3,2,1,0]] := by
  rw [groupsOf]; simp [reverseSelection]; rw [groupsOf, groupsOf]; simp

theorem sort73 : List.mergeSort [7, 3] (fun a b : Nat => decide (a ≤ b)) = [3, 7] := by
  simp [List.mergeSort, List.MergeSort.Internal.splitInTwo, List.merge]

theorem first_call8 : calculateNormals reverseSelection firstEstimator 0
      (fromPoints [10,11,12,13,14,15,16,17]) =
    .ok ⟨[13, 17], [4, 4], [7,6,5,4,3,2,1,0], [3, 7]⟩ := by
  have hr : List.range 8 = [0,1,2,3,4,5,6,7] := by decide
  simp only [calculateNormals, fromPoints, List.length_cons, List.length_nil]
  simp [hr, buildNormals_eq, reverse_groups8, leaves, normalLeaf, columns, setCol, firstEstimator,
    sort73, compactLoop, Outcome.check]

/-- Estimating a second time on the same object is not safe: the old index array, longer than the
reduced cloud, is used again, and points outside the cloud are read. -/
theorem C14_second_call_ub_fails :
    ∃ st, calculateNormals reverseSelection firstEstimator 0 (fromPoints [10,11,12,13,14,15,16,17]) = .ok st ∧
      st.points ≠ [] ∧ calculateNormals reverseSelection firstEstimator 0 st = .ub := by
  refine ⟨_, first_call8, by simp, ?_⟩
  simp only [calculateNormals]
  simp [buildNormals_eq, groupsOf, leaves, normalLeaf, columns]

-- the theorem's hypotheses are met and the result is not trivial
example : ∃ st, calculateNormals reverseSelection firstEstimator 0
    (fromPoints [10,11,12,13,14,15,16,17]) = .ok st ∧ st.points = [13, 17] := ⟨_, first_call8, rfl⟩

end Verif
