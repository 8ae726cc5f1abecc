import Verif.Spec.Heading
import Verif.Proofs.Filters2
import Mathlib.Tactic.Ring
import Mathlib.Tactic.LinearCombination
/-! C141: the heading of the sensor does not change which points the filters keep. -/
namespace Verif
open Spec
section
variable {R : Type} [Field R] [LinearOrder R]

theorem scanFrom_head (c s : R) (keep keep' : Nat → InnerPoint R → Bool) (h : ∀ i p, keep' i (headPoint c s p) = keep i p) :
    ∀ (ps : List (InnerPoint R)) (i : Nat),
      (scanFrom (fun (_ : Unit) i p => (keep' i p, ())) () i (ps.map (headPoint c s))).1 =
        (let r := (scanFrom (fun (_ : Unit) i p => (keep i p, ())) () i ps).1
         ⟨r.inl, r.outl, r.pts.map (headPoint c s)⟩)
  | [], _ => rfl
  | p :: ps, i => by
    have ih := scanFrom_head c s keep keep' h ps (i + 1)
    dsimp only at ih
    simp only [List.map_cons, scanFrom, h]
    by_cases hk : keep i p = true
    · simp only [hk, if_true, ih, List.map_cons]
    · simp only [hk, if_false, ih, Bool.false_eq_true]

theorem runScan_head (c s : R) (keep keep' : Nat → InnerPoint R → Bool) (h : ∀ i p, keep' i (headPoint c s p) = keep i p)
    (st : FState R) (out : InnerCloud R) :
    runScan keep' (headState c s st) (headCloud c s out) = (headState c s (runScan keep st out).1, headCloud c s (runScan keep st out).2) := by
  obtain ⟨inp, il, ol⟩ := st
  cases inp with
  | none => rfl
  | some a =>
    unfold runScan headState
    simp only [Option.map_some, filterPrepare]
    have e := scanFrom_head c s keep keep' h a.points 0
    dsimp only at e
    simp only [headCloud, e, List.map_append, List.map_nil]

theorem copyAll_head (c s : R) (st : FState R) (out : InnerCloud R) :
    copyAll (headState c s st) (headCloud c s out) = (headState c s (copyAll st out).1, headCloud c s (copyAll st out).2) := by
  obtain ⟨inp, il, ol⟩ := st
  cases inp with
  | none => rfl
  | some a =>
    unfold copyAll headState
    simp [headCloud]

/-- C141, range filter: with the scan turned by any angle, the same points (by their place in the cloud) are kept, and turned. -/
theorem C141_range {c s : R} (hcs : c ^ 2 + s ^ 2 = 1) (sqrt : R → R) (mn mx : R) (st : FState R) (out : InnerCloud R) :
    rangeFilter sqrt mn mx (headState c s st) (headCloud c s out) =
      (headState c s (rangeFilter sqrt mn mx st out).1, headCloud c s (rangeFilter sqrt mn mx st out).2) := by
  unfold rangeFilter
  refine runScan_head c s _ _ (fun _ p => ?_) st out
  unfold rangeKeep
  have : (headPoint c s p).x * (headPoint c s p).x + (headPoint c s p).y * (headPoint c s p).y + (headPoint c s p).z * (headPoint c s p).z =
      p.x * p.x + p.y * p.y + p.z * p.z := by
    simp only [headPoint]
    linear_combination (p.x ^ 2 + p.y ^ 2) * hcs
  rw [this]

/-- C141, filter by height. -/
theorem C141_height (c s limit mn mx : R) (st : FState R) (out : InnerCloud R) :
    axisFilter limit mn mx 2 (headState c s st) (headCloud c s out) =
      (headState c s (axisFilter limit mn mx 2 st out).1, headCloud c s (axisFilter limit mn mx 2 st out).2) := by
  unfold axisFilter
  by_cases h : mn = -limit ∧ mx = limit
  · rw [if_pos h, if_pos h]
    exact copyAll_head c s st out
  · rw [if_neg h, if_neg h]
    exact runScan_head c s _ _ (fun _ p => rfl) st out

/-- C141, random sample: with the same random numbers. -/
theorem C141_random (c s almostOne rate : R) (draws : Nat → R) (st : FState R) (out : InnerCloud R) :
    randomFilter almostOne rate draws (headState c s st) (headCloud c s out) =
      (headState c s (randomFilter almostOne rate draws st out).1, headCloud c s (randomFilter almostOne rate draws st out).2) := by
  unfold randomFilter
  by_cases h : rate > almostOne
  · rw [if_pos h, if_pos h]
    exact copyAll_head c s st out
  · rw [if_neg h, if_neg h]
    exact runScan_head c s _ _ (fun _ p => rfl) st out

theorem setInput_head (c s : R) (st : FState R) (a : InnerCloud R) :
    st.setInput (some (headCloud c s a)) = headState c s (st.setInput (some a)) := by
  unfold FState.setInput headState headCloud
  simp only [List.isEmpty_map]
  by_cases h : a.points.isEmpty = true
  · rw [if_pos h, if_pos h]
    rfl
  · rw [if_neg h, if_neg h]
    rfl

/-- A filter with the property of the three theorems above is a member of a chain that keeps the heading. -/
theorem C141_member (c s : R) (f : FState R → InnerCloud R → FState R × InnerCloud R)
    (h : ∀ st out, f (headState c s st) (headCloud c s out) = (headState c s (f st out).1, headCloud c s (f st out).2)) (st : FState R) :
    KeepsHeading c s (stageOf f st) := by
  intro a out
  unfold stageOf
  rw [setInput_head, h]

theorem chainLoop_head (c s : R) : ∀ (stages : List (Stage R)), (∀ f ∈ stages, KeepsHeading c s f) → ∀ m1 m2 : InnerCloud R,
    chainLoop stages (headCloud c s m1) (headCloud c s m2) = headCloud c s (chainLoop stages m1 m2)
  | [], _, _, _ => rfl
  | f :: fs, h, m1, m2 => by
    rw [chainLoop, chainLoop, h f (by simp) m1 m2]
    exact chainLoop_head c s fs (fun g hg => h g (by simp [hg])) _ _

/-- C141, a chain of filters: the turned scan gives the turned result. -/
theorem C141_chain (c s : R) (stages : List (Stage R)) (h : ∀ f ∈ stages, KeepsHeading c s f) (st : FState R) (out : InnerCloud R) :
    factoryFilter stages (headState c s st) (headCloud c s out) =
      (headState c s (factoryFilter stages st out).1, headCloud c s (factoryFilter stages st out).2) := by
  obtain ⟨inp, il, ol⟩ := st
  cases inp with
  | none => rfl
  | some a =>
    unfold factoryFilter headState
    simp only [Option.map_some, filterPrepare]
    cases stages with
    | nil => rfl
    | cons f fs =>
      have e : (freshCloud : InnerCloud R) = headCloud c s freshCloud := rfl
      simp only
      rw [e, chainLoop_head c s (f :: fs) h a freshCloud]
      rfl
end

/-! ### filters with cells -/

/-- A quarter turn of a cell. -/
def headVoxel (v : Voxel) : Voxel := ⟨-v.y, v.x, v.z⟩

theorem headVoxel_inj {v w : Voxel} (h : headVoxel v = headVoxel w) : v = w := by
  unfold headVoxel at h
  simp only [Vec3.mk.injEq] at h
  ext
  · exact h.2.1
  · omega
  · exact h.2.2

theorem truncInt_neg_head (q : Rat) : truncInt (-q) = -truncInt q := by
  unfold truncInt
  rcases lt_trichotomy q 0 with h | h | h
  · rw [if_pos (by linarith), if_neg (by linarith), Int.floor_neg]
  · rw [h]
    simp
  · rw [if_neg (by linarith), if_pos h.le, Int.ceil_neg]

theorem lround_neg_head (q : Rat) : lround (-q) = -lround q := by
  unfold lround
  rcases lt_trichotomy q 0 with h | h | h
  · rw [if_pos (by linarith), if_neg (by linarith), ← Int.floor_neg]
    congr 1
    ring
  · rw [h]
    norm_num
  · rw [if_neg (by linarith), if_pos h.le, ← Int.ceil_neg]
    congr 1
    ring

theorem bucketPush_head {K V V' : Type} [DecidableEq K] (τ : K → K) (hτ : ∀ a b, τ a = τ b → a = b) (f : V → V') (k : K) (x : V) :
    ∀ t : List (K × List V), bucketPush (τ k) (f x) (t.map fun e => (τ e.1, e.2.map f)) = (bucketPush k x t).map fun e => (τ e.1, e.2.map f)
  | [] => rfl
  | (k', xs) :: t => by
    simp only [List.map_cons, bucketPush]
    by_cases h : k' = k
    · rw [if_pos h, if_pos (by rw [h])]
      simp
    · rw [if_neg h, if_neg (fun e => h (hτ _ _ e)), bucketPush_head τ hτ f k x t]
      rfl

theorem groundKey_head (cfg : GroundCfg) (p : InnerPoint Rat) : groundKey cfg (headPoint 0 1 p) = headVoxel (groundKey cfg p) := by
  unfold groundKey headVoxel headPoint
  simp only [zero_mul, one_mul, zero_sub, add_zero, neg_div, truncInt_neg_head]

theorem gridKey_head (size : Rat) (p : InnerPoint Rat) : gridKey size (headPoint 0 1 p) = headVoxel (gridKey size p) := by
  unfold gridKey headVoxel headPoint
  simp only [zero_mul, one_mul, zero_sub, add_zero, neg_div, lround_neg_head]

theorem groundTable_head (cfg : GroundCfg) (a : InnerCloud Rat) :
    groundTable cfg (headCloud 0 1 a) = (groundTable cfg a).map fun e => (headVoxel e.1, e.2) := by
  unfold groundTable headCloud
  simp only
  have : ∀ (l : List (InnerPoint Rat × Nat)) (t : List (Voxel × List Nat)),
      (l.map fun q => (headPoint 0 1 q.1, q.2)).foldl (fun t q => bucketPush (groundKey cfg q.1) q.2 t) (t.map fun e => (headVoxel e.1, e.2)) =
        (l.foldl (fun t q => bucketPush (groundKey cfg q.1) q.2 t) t).map fun e => (headVoxel e.1, e.2) := by
    intro l
    induction l with
    | nil => exact fun _ => rfl
    | cons q l ih =>
      intro t
      rw [List.map_cons, List.foldl_cons, List.foldl_cons]
      have e := bucketPush_head headVoxel (fun _ _ => headVoxel_inj) (fun n : Nat => n) (groundKey cfg q.1) q.2 t
      simp only [List.map_id'] at e
      simp only [groundKey_head]
      rw [e]
      exact ih _
  have h := this a.points.zipIdx []
  rw [List.map_nil] at h
  rw [← h]
  congr 1
  rw [List.zipIdx_map]
  rfl

theorem voxelIsGround_head (cfg : GroundCfg) (ps : List (InnerPoint Rat)) (v : Voxel) (idx : List Nat) :
    voxelIsGround cfg (ps.map (headPoint 0 1)) (headVoxel v) idx = voxelIsGround cfg ps v idx := by
  unfold voxelIsGround
  have e : (idx.filterMap fun i => (ps.map (headPoint 0 1))[i]?).map InnerPoint.z = (idx.filterMap fun i => ps[i]?).map InnerPoint.z := by
    rw [List.map_filterMap, List.map_filterMap]
    congr 1
    funext i
    rw [List.getElem?_map]
    cases ps[i]? <;> rfl
  rw [e]
  rfl

/-- What a cell contributes. -/
def keptOf (cfg : GroundCfg) (ps : List (InnerPoint Rat)) (e : Voxel × List Nat) : List Nat :=
  if (e.2.length : Int) < cfg.minPoints then [] else if voxelIsGround cfg ps e.1 e.2 then [] else e.2
def droppedOf (cfg : GroundCfg) (ps : List (InnerPoint Rat)) (e : Voxel × List Nat) : List Nat :=
  if (e.2.length : Int) < cfg.minPoints then [] else if voxelIsGround cfg ps e.1 e.2 then e.2 else []

theorem groundLoop_flat (cfg : GroundCfg) (a : InnerCloud Rat) : ∀ t : List (Voxel × List Nat),
    (groundLoop cfg a t).inl = t.flatMap (keptOf cfg a.points) ∧ (groundLoop cfg a t).outl = t.flatMap (droppedOf cfg a.points)
  | [] => ⟨rfl, rfl⟩
  | (v, idx) :: t => by
    obtain ⟨h1, h2⟩ := groundLoop_flat cfg a t
    simp only [groundLoop, List.flatMap_cons, keptOf, droppedOf]
    by_cases hs : (idx.length : Int) < cfg.minPoints
    · simp only [hs, if_true, List.nil_append]
      exact ⟨h1, h2⟩
    · simp only [hs, if_false]
      by_cases hg : voxelIsGround cfg a.points v idx = true
      · simp only [hg, if_true, List.nil_append]
        exact ⟨h1, by rw [h2]⟩
      · simp only [hg, if_false, List.nil_append, Bool.false_eq_true]
        exact ⟨by rw [h1], h2⟩

theorem mergeSort_of_perm {l l' : List Nat} (h : l.Perm l') :
    l.mergeSort (fun a b => decide (a ≤ b)) = l'.mergeSort (fun a b => decide (a ≤ b)) := by
  have hs : ∀ l : List Nat, (l.mergeSort (fun a b => decide (a ≤ b))).Pairwise (· ≤ ·) := by
    intro l
    have := List.pairwise_mergeSort (le := fun a b : Nat => decide (a ≤ b)) (by intro a b c; simp; omega) (by intro a b; simp; omega) l
    exact this.imp (by intro a b; simp)
  exact (((List.mergeSort_perm l _).trans h).trans (List.mergeSort_perm l' _).symm).eq_of_pairwise (fun _ _ _ _ => le_antisymm) (hs l) (hs l')

/-- C141, removal of the ground by cells: with the scan turned by a quarter the same points are kept and removed, in whatever order the cells
are visited; the points come out turned, in some order. -/
theorem C141_ground_partial (cfg : GroundCfg) (io io' : IterOrder (Voxel × List Nat)) (st : FState Rat) (out out' : InnerCloud Rat) (a : InnerCloud Rat) :
    (groundFilter cfg io' { st with input := some (headCloud 0 1 a) } out').1.inliers = (groundFilter cfg io { st with input := some a } out).1.inliers ∧
    (groundFilter cfg io' { st with input := some (headCloud 0 1 a) } out').1.outliers = (groundFilter cfg io { st with input := some a } out).1.outliers ∧
    (groundFilter cfg io' { st with input := some (headCloud 0 1 a) } out').2.points.Perm
      ((groundFilter cfg io { st with input := some a } out).2.points.map (headPoint 0 1)) := by
  have hp : (io'.order (groundTable cfg (headCloud 0 1 a))).Perm ((io.order (groundTable cfg a)).map fun e => (headVoxel e.1, e.2)) := by
    refine (io'.perm _).trans ?_
    rw [groundTable_head]
    exact (io.perm _).symm.map _
  have hk : ∀ e : Voxel × List Nat, keptOf cfg (headCloud 0 1 a).points (headVoxel e.1, e.2) = keptOf cfg a.points e := by
    intro e
    unfold keptOf headCloud
    simp only [voxelIsGround_head]
  have hd : ∀ e : Voxel × List Nat, droppedOf cfg (headCloud 0 1 a).points (headVoxel e.1, e.2) = droppedOf cfg a.points e := by
    intro e
    unfold droppedOf headCloud
    simp only [voxelIsGround_head]
  have hin : (groundLoop cfg (headCloud 0 1 a) (io'.order (groundTable cfg (headCloud 0 1 a)))).inl.Perm
      (groundLoop cfg a (io.order (groundTable cfg a))).inl := by
    rw [(groundLoop_flat cfg _ _).1, (groundLoop_flat cfg _ _).1]
    refine (hp.flatMap_right _).trans ?_
    rw [List.flatMap_map]
    simp only [hk]
    exact List.Perm.refl _
  have hout : (groundLoop cfg (headCloud 0 1 a) (io'.order (groundTable cfg (headCloud 0 1 a)))).outl.Perm
      (groundLoop cfg a (io.order (groundTable cfg a))).outl := by
    rw [(groundLoop_flat cfg _ _).2, (groundLoop_flat cfg _ _).2]
    refine (hp.flatMap_right _).trans ?_
    rw [List.flatMap_map]
    simp only [hd]
    exact List.Perm.refl _
  refine ⟨?_, ?_, ?_⟩
  · simp only [groundFilter, filterPrepare, List.nil_append]
    exact mergeSort_of_perm hin
  · simp only [groundFilter, filterPrepare, List.nil_append]
    exact mergeSort_of_perm hout
  · simp only [groundFilter, filterPrepare, List.nil_append]
    rw [groundLoop_points, groundLoop_points, List.map_filterMap]
    refine (hin.filterMap _).trans ?_
    have : (fun i : Nat => (headCloud 0 1 a).points[i]?) = fun i : Nat => Option.map (headPoint 0 1) a.points[i]? := by
      funext i
      unfold headCloud
      rw [List.getElem?_map]
    rw [this]

theorem bucketAll_head (size : Rat) (ps : List (InnerPoint Rat)) :
    bucketAll (gridKey size) (ps.map (headPoint 0 1)) = (bucketAll (gridKey size) ps).map fun e => (headVoxel e.1, e.2.map (headPoint 0 1)) := by
  unfold bucketAll
  have : ∀ (l : List (InnerPoint Rat)) (t : List (Voxel × List (InnerPoint Rat))),
      (l.map (headPoint 0 1)).foldl (fun t x => bucketPush (gridKey size x) x t) (t.map fun e => (headVoxel e.1, e.2.map (headPoint 0 1))) =
        (l.foldl (fun t x => bucketPush (gridKey size x) x t) t).map fun e => (headVoxel e.1, e.2.map (headPoint 0 1)) := by
    intro l
    induction l with
    | nil => exact fun _ => rfl
    | cons q l ih =>
      intro t
      rw [List.map_cons, List.foldl_cons, List.foldl_cons, gridKey_head, bucketPush_head headVoxel (fun _ _ => headVoxel_inj)]
      exact ih _
  exact this ps []

theorem meanPoint_head (ps : List (InnerPoint Rat)) : meanPoint (ps.map (headPoint 0 1)) = headPoint 0 1 (meanPoint ps) := by
  have hx : (ps.map (headPoint 0 1)).map InnerPoint.x = (ps.map InnerPoint.y).map fun v => -v := by
    rw [List.map_map, List.map_map]
    congr 1
    funext p
    simp [headPoint]
  have hy : (ps.map (headPoint 0 1)).map InnerPoint.y = ps.map InnerPoint.x := by
    rw [List.map_map]
    congr 1
    funext p
    simp [headPoint]
  have hz : (ps.map (headPoint 0 1)).map InnerPoint.z = ps.map InnerPoint.z := by
    rw [List.map_map]
    rfl
  have hi : (ps.map (headPoint 0 1)).map InnerPoint.intensity = ps.map InnerPoint.intensity := by
    rw [List.map_map]
    rfl
  have hn : ∀ l : List Rat, mean (l.map fun v => -v) = -mean l := by
    intro l
    unfold mean
    have : (l.map fun v => -v).sum = -l.sum := by
      induction l with
      | nil => simp
      | cons a l ih =>
        rw [List.map_cons, List.sum_cons, List.sum_cons, ih]
        ring
    rw [this, List.length_map, neg_div]
  unfold meanPoint
  rw [hx, hy, hz, hi, hn]
  simp [headPoint]

/-- C141, down-sampling by cells: with the scan turned by a quarter the same averages come out, turned, in some order. -/
theorem C141_grid_partial (size : Rat) (io io' : IterOrder (Voxel × List (InnerPoint Rat))) (st : FState Rat) (out out' a : InnerCloud Rat) :
    ∃ r r', voxelGridFilter size io { st with input := some a } out = .ok r ∧
      voxelGridFilter size io' { st with input := some (headCloud 0 1 a) } out' = .ok r' ∧
      r'.2.points.Perm (r.2.points.map (headPoint 0 1)) ∧ r'.2.stamp = r.2.stamp := by
  have he : ∀ (io : IterOrder (Voxel × List (InnerPoint Rat))) (ps : List (InnerPoint Rat)),
      averageAll (io.order (bucketAll (gridKey size) ps)) = .ok ((io.order (bucketAll (gridKey size) ps)).map fun e => meanPoint e.2) := by
    intro io ps
    refine averageAll_eq _ fun e h => ?_
    exact ((tableInv_all (gridKey size) ps).content e ((io.perm _).mem_iff.1 h)).2
  have hf : ∀ (io : IterOrder (Voxel × List (InnerPoint Rat))) (b out : InnerCloud Rat), voxelGridFilter size io { st with input := some b } out =
      .ok (⟨some b, [], []⟩, ⟨b.stamp, (io.order (bucketAll (gridKey size) b.points)).map fun e => meanPoint e.2⟩) := by
    intro io b out
    simp only [voxelGridFilter, filterPrepare, he, Outcome.bind_ok, Outcome.pure_eq, List.nil_append]
  refine ⟨_, _, hf io a out, hf io' (headCloud 0 1 a) out', ?_, rfl⟩
  · simp only [List.map_map]
    refine ((io'.perm _).map _).trans ?_
    unfold headCloud
    simp only
    rw [bucketAll_head, List.map_map]
    refine List.Perm.trans ?_ ((io.perm _).symm.map _)
    rw [show ((fun e : Voxel × List (InnerPoint Rat) => meanPoint e.2) ∘ fun e => (headVoxel e.1, e.2.map (headPoint 0 1))) =
      (headPoint 0 1) ∘ fun e : Voxel × List (InnerPoint Rat) => meanPoint e.2 from by
        funext e
        exact meanPoint_head e.2]

/-! ### examples -/

/-- Two points that share a cell of one metre, and what they are after a turn with cosine 3/5. -/
def twoAbreast : InnerCloud Rat := { stamp := ⟨0, 0, 1⟩, points := [⟨1, 14 / 10, 0, 0, 0⟩, ⟨1, 6 / 10, 0, 0, 0⟩] }

/-- C141 is false for other turns: two points that the down-sampling merges are kept apart if the scan is turned by about 53 degrees. -/
theorem C141_grid_fails : ∃ (size c s : Rat) (a : InnerCloud Rat), c ^ 2 + s ^ 2 = 1 ∧ 0 < size ∧
    (bucketAll (gridKey size) a.points).length = 1 ∧ (bucketAll (gridKey size) (headCloud c s a).points).length = 2 :=
  ⟨1, 3 / 5, 4 / 5, twoAbreast, by decide +kernel, by decide +kernel, by decide +kernel, by decide +kernel⟩

/-- C141 is false for a box and for limits along the two other axes: a quarter turn changes what is kept. -/
theorem C141_box_fails : ∃ (mn mx : Vec3 Rat) (p : InnerPoint Rat), boxContains mn mx p = true ∧ boxContains mn mx (headPoint 0 1 p) = false :=
  ⟨⟨0, 0, 0⟩, ⟨1, 1, 1⟩, ⟨1, 1, 1, 0, 0⟩, by decide +kernel, by decide +kernel⟩

theorem C141_axis_fails : ∀ axis : Int, axis = 0 ∨ axis = 1 → ∃ (mn mx : Rat) (p : InnerPoint Rat),
    axisKeep mn mx axis p = true ∧ axisKeep mn mx axis (headPoint 0 1 p) = false := by
  rintro axis (rfl | rfl)
  · exact ⟨1, 2, ⟨1, 0, 0, 0, 0⟩, by decide +kernel, by decide +kernel⟩
  · exact ⟨1, 2, ⟨0, 1, 0, 0, 0⟩, by decide +kernel, by decide +kernel⟩

example : (3 / 5 : Rat) ^ 2 + (4 / 5) ^ 2 = 1 := by norm_num
example : headPoint (3 / 5 : Rat) (4 / 5) ⟨5, 0, 1, 7, 0⟩ = ⟨3, 4, 1, 7, 0⟩ := by decide +kernel
/-- A chain of a range filter, a filter by height and a random sample. -/
example (st : FState Rat) (sqrt : Rat → Rat) (draws : Nat → Rat) : ∀ f ∈ [stageOf (rangeFilter sqrt 1 50) st, stageOf (axisFilter 1000 (-1) 2 2) st,
    stageOf (randomFilter (999 / 1000) (1 / 2) draws) st], KeepsHeading (3 / 5 : Rat) (4 / 5) f := by
  intro f hf
  simp only [List.mem_cons, List.not_mem_nil, or_false] at hf
  rcases hf with rfl | rfl | rfl
  · exact C141_member _ _ _ (fun st out => C141_range (by norm_num) sqrt 1 50 st out) st
  · exact C141_member _ _ _ (fun st out => C141_height _ _ 1000 (-1) 2 st out) st
  · exact C141_member _ _ _ (fun st out => C141_random _ _ _ _ draws st out) st
end Verif
