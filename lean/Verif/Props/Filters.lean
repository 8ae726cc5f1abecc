import Verif.Proofs.Filters2
import Mathlib.Data.Real.Sqrt
import Mathlib.Data.List.Induction
/-! Property theorems C20 - C23: splitting, decisions, repetition and chains of filters. -/
namespace Verif
open Spec
section
variable {R : Type} [Field R] [LinearOrder R]

/-! ### C20 -/

/-- C20: range, axis-range, random-sampling and line-based ground filters, after `SetInputCloud(c)`
on a filter in any state: index lists and output split the cloud. -/
theorem C20_split (sqrt : R → R) (min max limit : R) (axis : Int) (one rate : R) (draws : Nat → R)
    (flags : Nat → Bool) (st : FState R) (c out : InnerCloud R) (hc : c.points ≠ []) :
    (let r := rangeFilter sqrt min max (st.setInput (some c)) out
     Filtered c r.1.inliers r.1.outliers r.2) ∧
    (let r := axisFilter limit min max axis (st.setInput (some c)) out
     Filtered c r.1.inliers r.1.outliers r.2) ∧
    (let r := randomFilter one rate draws (st.setInput (some c)) out
     Filtered c r.1.inliers r.1.outliers r.2) ∧
    (let r := ground2Filter flags (st.setInput (some c)) out
     Filtered c r.1.inliers r.1.outliers r.2) := by
  have hi : (st.setInput (some c)).input = some c := by rw [setInput_input st c hc]
  refine ⟨runScan_filtered _ _ c out hi, ?_, ?_, runScan_filtered _ _ c out hi⟩
  · unfold axisFilter
    split
    · exact copyAll_filtered st c out hc
    · exact runScan_filtered _ _ c out hi
  · unfold randomFilter
    split
    · exact copyAll_filtered st c out hc
    · exact runScan_filtered _ _ c out hi

/-- C20, bounding-box filter: with a proper box it runs and splits the cloud; otherwise the program
stops. -/
theorem C20_split_bbox (mn mx : Vec3 R) (st : FState R) (c out : InnerCloud R) (hc : c.points ≠ []) :
    (mn.x < mx.x ∧ mn.y < mx.y ∧ mn.z < mx.z →
      ∃ r, bboxFilter mn mx (st.setInput (some c)) out = .ok r ∧ Filtered c r.1.inliers r.1.outliers r.2) ∧
    (¬ (mn.x < mx.x ∧ mn.y < mx.y ∧ mn.z < mx.z) →
      bboxFilter mn mx (st.setInput (some c)) out = .abort) := by
  have hi : (st.setInput (some c)).input = some c := by rw [setInput_input st c hc]
  unfold bboxFilter
  rw [hi]
  constructor
  · intro h
    simp only
    rw [Outcome.check_pos h]
    exact ⟨_, rfl, runScan_filtered _ _ c out hi⟩
  · intro h
    simp only
    rw [Outcome.check_neg h]
    rfl

/-- C20, range image: for positive image sizes the filter never reads outside its arrays, and it
splits the cloud. -/
theorem C20_split_image (near tiny : R) (G : ImageGeom R) (rows cols : Int) (hr : 0 < rows) (hc : 0 < cols)
    (st : ImageFilter R) (c out : InnerCloud R) (hne : c.points ≠ []) :
    ∃ r, (st.setInput rows cols (some c)).filter near tiny G rows cols out = .ok r ∧
      Filtered c r.1.base.inliers r.1.base.outliers r.2 := by
  have h0 : ¬ (rows ≤ 0 ∨ cols ≤ 0) := by omega
  have hi : st.setInput rows cols (some c) = { base := { st.base with input := some c }, image := ImageState.blank } := by
    simp only [ImageFilter.setInput, List.isEmpty_iff, hne, if_false, h0]
  have hs := scan_splits (imageKeep near tiny G rows cols) ImageState.blank c.points
  have hp := scan_points (imageKeep near tiny G rows cols) ImageState.blank 0 c.points
  have hg := (scan_ge (imageKeep near tiny G rows cols) ImageState.blank 0 c.points).1
  obtain ⟨ps, h1, h2⟩ := pickPoints_ok c.points
    (scanFrom (imageKeep near tiny G rows cols) ImageState.blank 0 c.points).1.inl
    (fun i hi => by have := (hg i hi).2; omega)
  rw [hi]
  unfold ImageFilter.filter
  simp only [h1, Outcome.bind_ok, Outcome.pure_eq]
  exact ⟨_, rfl, hs, h2, rfl⟩

end

/-- C20 is false for the voxel-based ground filter: points in sparse voxels are in neither list. -/
theorem C20_ground_fails (io : IterOrder (Voxel × List Nat)) :
    ¬ (∀ (st : FState Rat) (c out : InnerCloud Rat), c.points ≠ [] →
      let r := groundFilter {} io (st.setInput (some c)) out
      Filtered c r.1.inliers r.1.outliers r.2) := by
  intro h
  have h1 := h {} ⟨⟨0, 0, 1⟩, [⟨5, 5, 5, 1, 0⟩]⟩ freshCloud (by simp)
  have ht : groundTable ({} : GroundCfg) ⟨⟨0, 0, 1⟩, [⟨5, 5, 5, 1, 0⟩]⟩ = [(⟨6, 6, 6⟩, [0])] := by decide +kernel
  have ho : io.order [(⟨6, 6, 6⟩, [0])] = [((⟨6, 6, 6⟩ : Voxel), [0])] :=
    List.perm_singleton.1 (io.perm _)
  have hc := (h1.splits.complete 0).1 (by simp)
  simp only [groundFilter, FState.setInput, List.isEmpty_cons, Bool.false_eq_true, if_false, filterPrepare,
    ht, ho] at hc
  simp [groundLoop] at hc

/-- C20, what holds for the voxel-based ground filter: the lists are increasing and disjoint, they
list exactly the points whose voxel holds enough points, and the output consists of the inlier
points (in an unspecified order). -/
theorem C20_ground_partial (cfg : GroundCfg) (io : IterOrder (Voxel × List Nat)) (st : FState Rat)
    (c out : InnerCloud Rat) (hc : c.points ≠ []) :
    let r := groundFilter cfg io (st.setInput (some c)) out
    r.1.inliers.Pairwise (· < ·) ∧ r.1.outliers.Pairwise (· < ·) ∧
    (∀ i ∈ r.1.inliers, i ∉ r.1.outliers) ∧
    (∀ i, i ∈ r.1.inliers ∨ i ∈ r.1.outliers ↔ ∃ p, c.points[i]? = some p ∧
      cfg.minPoints ≤ (c.points.countP (fun q => groundKey cfg q = groundKey cfg p) : Int)) ∧
    (r.2.points.map some).Perm (r.1.inliers.map (fun i => c.points[i]?)) ∧
    r.2.stamp = c.stamp := by
  intro r
  have hr : r = groundFilter cfg io (st.setInput (some c)) out := rfl
  rw [setInput_input st c hc] at hr
  simp only [groundFilter, filterPrepare, List.nil_append] at hr
  have inv := (groundTable_inv cfg c).perm (io.perm (groundTable cfg c))
  generalize io.order (groundTable cfg c) = t at *
  have hfl := inv.flatten
  have hsub := (groundLoop_sub cfg c t).trans hfl.subperm
  have hmem := groundLoop_mem cfg c t
  have hpts := groundLoop_points cfg c t
  obtain ⟨l, hl1, hl2⟩ := hsub
  have hnd : ((groundLoop cfg c t).inl ++ (groundLoop cfg c t).outl).Nodup :=
    hl1.nodup_iff.1 (hl2.nodup List.nodup_range)
  rw [List.nodup_append] at hnd
  have hmi : ∀ i, i ∈ r.1.inliers ↔ i ∈ (groundLoop cfg c t).inl := by
    intro i; rw [hr]; exact (List.mergeSort_perm _ _).mem_iff
  have hmo : ∀ i, i ∈ r.1.outliers ↔ i ∈ (groundLoop cfg c t).outl := by
    intro i; rw [hr]; exact (List.mergeSort_perm _ _).mem_iff
  have hcount : ∀ e ∈ t, ∀ i ∈ e.2, ∃ p, c.points[i]? = some p ∧
      e.2.length = c.points.countP (fun q => groundKey cfg q = groundKey cfg p) := by
    intro e he i hi
    obtain ⟨hcon, -⟩ := inv.content e he
    rw [hcon] at hi
    obtain ⟨hlt, hk⟩ := List.mem_filter.1 hi
    rw [List.mem_range] at hlt
    refine ⟨c.points[i], List.getElem?_eq_getElem hlt, ?_⟩
    have hk' : groundKey cfg c.points[i] = e.1 := by
      simpa [idxKey, List.getElem?_eq_getElem hlt] using hk
    rw [hcon, ← List.countP_eq_length_filter]
    symm
    apply countP_range
    intro j hj
    simp [idxKey, List.getElem?_eq_getElem hj, hk']
  refine ⟨?_, ?_, ?_, ?_, ?_, ?_⟩
  · rw [hr]; exact sorted_of_nodup _ hnd.1
  · rw [hr]; exact sorted_of_nodup _ hnd.2.1
  · intro i h1 h2
    exact hnd.2.2 i ((hmi i).1 h1) i ((hmo i).1 h2) rfl
  · intro i
    rw [hmi, hmo, (hmem i).1, (hmem i).2]
    constructor
    · rintro (⟨e, h1, h2, h3, -⟩ | ⟨e, h1, h2, h3, -⟩)
      all_goals
        obtain ⟨p, hp, hl⟩ := hcount e h1 i h2
        refine ⟨p, hp, ?_⟩
        rw [← hl]; omega
    · rintro ⟨p, hp, hcnt⟩
      have hlt : i < c.points.length := (List.getElem?_eq_some_iff.1 hp).1
      obtain ⟨e, he, hk⟩ := inv.all i (List.mem_range.2 hlt)
      have hie : i ∈ e.2 := by
        rw [(inv.content e he).1]
        exact List.mem_filter.2 ⟨List.mem_range.2 hlt, by simp [hk]⟩
      obtain ⟨p', hp', hl⟩ := hcount e he i hie
      rw [hp] at hp'
      cases hp'
      rw [← hl] at hcnt
      cases hg : voxelIsGround cfg c.points e.1 e.2
      · exact Or.inl ⟨e, he, hie, by omega, hg⟩
      · exact Or.inr ⟨e, he, hie, by omega, hg⟩
  · rw [hr]
    simp only
    rw [hpts]
    have hlt : ∀ i ∈ (groundLoop cfg c t).inl, i < c.points.length := by
      intro i hi
      obtain ⟨e, h1, h2, -⟩ := (hmem i).1.1 hi
      obtain ⟨p, hp, -⟩ := hcount e h1 i h2
      exact (List.getElem?_eq_some_iff.1 hp).1
    rw [filterMap_get _ _ hlt]
    exact (List.Perm.map _ (List.mergeSort_perm _ _)).symm
  · rw [hr]

/-- C20 is false for the voxel-based ground filter also in the order of the output: with some
iteration order of the hash table the output is not in input order. -/
theorem C20_ground_order_fails :
    ∃ (io : IterOrder (Voxel × List Nat)) (c : InnerCloud Rat),
      let r := groundFilter { minPoints := 1 } io (({} : FState Rat).setInput (some c)) freshCloud
      r.1.inliers = [0, 1] ∧ r.2.points ≠ c.points ∧ c.points.length = 2 := by
  refine ⟨⟨List.reverse, fun l => List.reverse_perm l⟩,
    ⟨⟨0, 0, 1⟩, [⟨5, 5, 5, 1, 0⟩, ⟨9, 9, 9, 1, 0⟩]⟩, ?_, ?_, rfl⟩
  · have ht : groundTable ({ minPoints := 1 } : GroundCfg)
        ⟨⟨0, 0, 1⟩, [⟨5, 5, 5, 1, 0⟩, ⟨9, 9, 9, 1, 0⟩]⟩ = [(⟨6, 6, 6⟩, [0]), (⟨11, 11, 11⟩, [1])] := by
      decide +kernel
    simp only [groundFilter, FState.setInput, List.isEmpty_cons, Bool.false_eq_true, if_false, filterPrepare, ht]
    simp [groundLoop, voxelIsGround]
    simp [List.mergeSort, List.MergeSort.Internal.splitInTwo, List.merge]
  · have ht : groundTable ({ minPoints := 1 } : GroundCfg)
        ⟨⟨0, 0, 1⟩, [⟨5, 5, 5, 1, 0⟩, ⟨9, 9, 9, 1, 0⟩]⟩ = [(⟨6, 6, 6⟩, [0]), (⟨11, 11, 11⟩, [1])] := by
      decide +kernel
    simp only [groundFilter, FState.setInput, List.isEmpty_cons, Bool.false_eq_true, if_false, filterPrepare, ht]
    simp [groundLoop, voxelIsGround]

example : ({ stamp := ⟨3, 4, 1⟩, points := [⟨1, 2, 3, 4, 0⟩, ⟨0, 9, 3, 4, 0⟩] } : InnerCloud Rat).points ≠ [] := by
  simp

end Verif
