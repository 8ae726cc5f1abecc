import Verif.Spec.Units
import Verif.Props.Heading
import Mathlib.Analysis.Real.Sqrt
import Mathlib.Tactic.Linarith
import Mathlib.Tactic.FinCases
import Mathlib.Tactic.Ring
/-! C146: the unit of length does not matter, if all lengths are given in it. -/
namespace Verif
open Spec
section
variable {R : Type} [Field R] [LinearOrder R] [IsStrictOrderedRing R]

omit [IsStrictOrderedRing R] in
theorem scanFrom_unit (s : R) (keep keep' : Nat → InnerPoint R → Bool) (h : ∀ i p, keep' i (pointUnit s p) = keep i p) :
    ∀ (ps : List (InnerPoint R)) (i : Nat), scanFrom (fun (_ : Unit) i p => (keep' i p, ())) () i (ps.map (pointUnit s)) =
      (⟨(scanFrom (fun (_ : Unit) i p => (keep i p, ())) () i ps).1.inl, (scanFrom (fun (_ : Unit) i p => (keep i p, ())) () i ps).1.outl,
        (scanFrom (fun (_ : Unit) i p => (keep i p, ())) () i ps).1.pts.map (pointUnit s)⟩, ())
  | [], _ => rfl
  | p :: ps, i => by
    have ih := scanFrom_unit s keep keep' h ps (i + 1)
    simp only [List.map_cons, scanFrom, h, ih]
    by_cases hk : keep i p = true
    · simp only [hk, if_true, List.map_cons]
    · simp only [hk, if_false, Bool.false_eq_true]

omit [IsStrictOrderedRing R] in
theorem runScan_unit (s : R) (keep keep' : Nat → InnerPoint R → Bool) (h : ∀ i p, keep' i (pointUnit s p) = keep i p) (st : FState R)
    (out : InnerCloud R) :
    runScan keep' (stateUnit s st) (cloudUnit s out) = (stateUnit s (runScan keep st out).1, cloudUnit s (runScan keep st out).2) := by
  obtain ⟨inp, il, ol⟩ := st
  cases inp with
  | none => rfl
  | some a =>
    unfold runScan stateUnit
    simp only [Option.map_some, filterPrepare]
    have e := scanFrom_unit s keep keep' h a.points 0
    simp only [cloudUnit, e, List.map_append, List.map_nil]

/-- C146, range filter; `sqrt` is exact. -/
theorem C146_range (sqrt : R → R) (s : R) (hs : 0 < s) (hq : ∀ x, 0 ≤ x → sqrt (s * s * x) = s * sqrt x) (mn mx : R) (st : FState R)
    (out : InnerCloud R) :
    rangeFilter sqrt (s * mn) (s * mx) (stateUnit s st) (cloudUnit s out) =
      (stateUnit s (rangeFilter sqrt mn mx st out).1, cloudUnit s (rangeFilter sqrt mn mx st out).2) := by
  refine runScan_unit s _ _ (fun _ p => ?_) st out
  unfold rangeKeep pointUnit
  dsimp only
  rw [show s * p.x * (s * p.x) + s * p.y * (s * p.y) + s * p.z * (s * p.z) = s * s * (p.x * p.x + p.y * p.y + p.z * p.z) by ring,
    hq _ (add_nonneg (add_nonneg (mul_self_nonneg _) (mul_self_nonneg _)) (mul_self_nonneg _))]
  simp only [ge_iff_le, mul_le_mul_iff_right₀ hs]

/-- C146, limits along an axis, other than "no limit" in either unit. -/
theorem C146_axis (limit mn mx s : R) (hs : 0 < s) (h1 : ¬ (mn = -limit ∧ mx = limit)) (h2 : ¬ (s * mn = -limit ∧ s * mx = limit))
    (axis : Int) (st : FState R) (out : InnerCloud R) :
    axisFilter limit (s * mn) (s * mx) axis (stateUnit s st) (cloudUnit s out) =
      (stateUnit s (axisFilter limit mn mx axis st out).1, cloudUnit s (axisFilter limit mn mx axis st out).2) := by
  unfold axisFilter
  rw [if_neg h1, if_neg h2]
  refine runScan_unit s _ _ (fun _ p => ?_) st out
  unfold axisKeep pointUnit
  simp only [gt_iff_lt, mul_lt_mul_iff_right₀ hs]

/-- C146, random sample with the same random numbers. -/
theorem C146_random (almostOne rate s : R) (draws : Nat → R) (st : FState R) (out : InnerCloud R) :
    randomFilter almostOne rate draws (stateUnit s st) (cloudUnit s out) =
      (stateUnit s (randomFilter almostOne rate draws st out).1, cloudUnit s (randomFilter almostOne rate draws st out).2) := by
  unfold randomFilter
  by_cases h : rate > almostOne
  · rw [if_pos h, if_pos h]
    obtain ⟨inp, il, ol⟩ := st
    cases inp with
    | none => rfl
    | some a =>
      unfold copyAll stateUnit
      simp [cloudUnit]
  · rw [if_neg h, if_neg h]
    exact runScan_unit s _ _ (fun _ _ => rfl) st out

/-- C146, box. -/
theorem C146_box (mn mx : Vec3 R) (s : R) (hs : 0 < s) (st : FState R) (out : InnerCloud R) :
    bboxFilter (inUnit s mn) (inUnit s mx) (stateUnit s st) (cloudUnit s out) =
      sameWith (fun r => (stateUnit s r.1, cloudUnit s r.2)) (bboxFilter mn mx st out) := by
  have hr := runScan_unit s (fun _ p => !boxContains mn mx p) (fun _ p => !boxContains (inUnit s mn) (inUnit s mx) p) (fun _ p => by
    simp only [boxContains, inUnit, pointUnit, ge_iff_le, mul_le_mul_iff_right₀ hs]) st out
  obtain ⟨inp, il, ol⟩ := st
  cases inp with
  | none => rfl
  | some a =>
    unfold bboxFilter
    simp only [stateUnit, Option.map_some] at hr ⊢
    have hc : ((inUnit s mn).x < (inUnit s mx).x ∧ (inUnit s mn).y < (inUnit s mx).y ∧ (inUnit s mn).z < (inUnit s mx).z) ↔
        (mn.x < mx.x ∧ mn.y < mx.y ∧ mn.z < mx.z) := by
      simp only [inUnit, mul_lt_mul_iff_right₀ hs]
    by_cases h : mn.x < mx.x ∧ mn.y < mx.y ∧ mn.z < mx.z
    · rw [Outcome.check_pos h, Outcome.check_pos (hc.2 h)]
      simp only [Outcome.bind_ok, Outcome.pure_eq, sameWith, hr]
    · rw [Outcome.check_neg h, Outcome.check_neg (fun h' => h (hc.1 h'))]
      rfl
end

section
variable {R : Type} [Field R] [LinearOrder R]

/-- C146, moving a cloud by a pose. -/
theorem C146_moved (s : R) (T : Mat4 R) (a : InnerCloud R) :
    transformInplace (poseUnit s T) (cloudUnit s a) = cloudUnit s (transformInplace T a) := by
  unfold transformInplace cloudUnit
  simp only [List.map_map]
  congr 1
  refine List.map_congr_left fun p _ => ?_
  simp only [Function.comp, transformPoint, homTimes, pointUnit, poseUnit, Matrix.mulVec, dotProduct, Fin.sum_univ_four, InnerPoint.mk.injEq,
    and_true]
  refine ⟨?_, ?_, ?_⟩ <;> simp <;> ring

/-- C146, poses one after the other. -/
theorem C146_poses (s : R) (A B : Mat4 R) (hA : A 3 = ![0, 0, 0, 1]) (hB : B 3 = ![0, 0, 0, 1]) :
    poseUnit s (A * B) = poseUnit s A * poseUnit s B := by
  have a0 : A 3 0 = 0 := congrFun hA 0
  have a1 : A 3 1 = 0 := congrFun hA 1
  have a2 : A 3 2 = 0 := congrFun hA 2
  have b0 : B 3 0 = 0 := congrFun hB 0
  have b1 : B 3 1 = 0 := congrFun hB 1
  have b2 : B 3 2 = 0 := congrFun hB 2
  have b3 : B 3 3 = 1 := congrFun hB 3
  ext i j
  fin_cases i <;> fin_cases j <;> simp [poseUnit, Matrix.mul_apply, Fin.sum_univ_four, a0, a1, a2, b0, b1, b2, b3] <;> ring
end

/-! ### filters with cells -/

theorem share_unit {s : Rat} (hs : 0 < s) (x l : Rat) : s * x / (s * l) = x / l := mul_div_mul_left x l (ne_of_gt hs)

theorem groundTable_unit (cfg : GroundCfg) {s : Rat} (hs : 0 < s) (a : InnerCloud Rat) :
    groundTable (groundUnit s cfg) (cloudUnit s a) = groundTable cfg a := by
  unfold groundTable cloudUnit
  simp only
  rw [List.zipIdx_map, List.foldl_map]
  have : ∀ p : InnerPoint Rat, groundKey (groundUnit s cfg) (pointUnit s p) = groundKey cfg p := by
    intro p
    simp only [groundKey, groundUnit, pointUnit, share_unit hs]
  simp only [Prod.map, id, this]

/-- One step of `zSpread`. -/
def spreadStep (m : Rat × Rat) (z : Rat) : Rat × Rat := (if z > m.1 then z else m.1, if z < m.2 then z else m.2)

theorem spread_unit {s : Rat} (hs : 0 < s) : ∀ (zs : List Rat) (m : Rat × Rat),
    (zs.map (s * ·)).foldl spreadStep (s * m.1, s * m.2) = (s * (zs.foldl spreadStep m).1, s * (zs.foldl spreadStep m).2)
  | [], _ => rfl
  | z :: zs, m => by
    rw [List.map_cons, List.foldl_cons, List.foldl_cons, ← spread_unit hs zs]
    congr 1
    unfold spreadStep
    simp only [gt_iff_lt, mul_lt_mul_iff_right₀ hs]
    refine Prod.ext ?_ ?_
    · dsimp only
      split <;> rfl
    · dsimp only
      split <;> rfl

theorem voxelIsGround_unit (cfg : GroundCfg) {s : Rat} (hs : 0 < s) (ps : List (InnerPoint Rat))
    (hz : ∀ p ∈ ps, |p.z| < 1000000000 ∧ |s * p.z| < 1000000000) (v : Voxel) (idx : List Nat) :
    voxelIsGround (groundUnit s cfg) (ps.map (pointUnit s)) v idx = voxelIsGround cfg ps v idx := by
  unfold voxelIsGround
  have e : (idx.filterMap fun i => (ps.map (pointUnit s))[i]?).map InnerPoint.z =
      ((idx.filterMap fun i => ps[i]?).map InnerPoint.z).map (s * ·) := by
    rw [List.map_filterMap, List.map_filterMap, List.map_filterMap]
    congr 1
    funext i
    rw [List.getElem?_map]
    cases ps[i]? <;> rfl
  rw [e]
  have hb : ∀ z ∈ (idx.filterMap fun i => ps[i]?).map InnerPoint.z, |z| < 1000000000 ∧ |s * z| < 1000000000 := by
    intro z h
    obtain ⟨p, hp, rfl⟩ := List.mem_map.1 h
    obtain ⟨i, _, hi⟩ := List.mem_filterMap.1 hp
    exact hz p (List.mem_of_getElem? hi)
  generalize (idx.filterMap fun i => ps[i]?).map InnerPoint.z = zs at hb
  cases zs with
  | nil =>
    have : (zSpread []).1 - (zSpread []).2 < 0 := by decide +kernel
    simp [not_le.2 this]
  | cons z zs =>
    obtain ⟨h1, h2⟩ := hb z (List.mem_cons_self ..)
    have f1 : zSpread (z :: zs) = zs.foldl spreadStep (z, z) := by
      show zs.foldl spreadStep (spreadStep (-1000000000, 1000000000) z) = _
      rw [abs_lt] at h1
      unfold spreadStep
      rw [if_pos h1.1, if_pos h1.2]
    have f2 : zSpread ((z :: zs).map (s * ·)) = (zs.map (s * ·)).foldl spreadStep (s * z, s * z) := by
      show (zs.map (s * ·)).foldl spreadStep (spreadStep (-1000000000, 1000000000) (s * z)) = _
      rw [abs_lt] at h2
      unfold spreadStep
      rw [if_pos h2.1, if_pos h2.2]
    rw [f1, f2, spread_unit hs zs (z, z)]
    generalize zs.foldl spreadStep (z, z) = m
    simp only [groundUnit, ← mul_sub, ge_iff_le, mul_nonneg_iff_of_pos_left hs, mul_le_mul_iff_right₀ hs]

theorem groundLoop_unit (cfg : GroundCfg) {s : Rat} (hs : 0 < s) (a : InnerCloud Rat)
    (hz : ∀ p ∈ a.points, |p.z| < 1000000000 ∧ |s * p.z| < 1000000000) : ∀ t : List (Voxel × List Nat),
    groundLoop (groundUnit s cfg) (cloudUnit s a) t =
      ⟨(groundLoop cfg a t).inl, (groundLoop cfg a t).outl, (groundLoop cfg a t).pts.map (pointUnit s)⟩
  | [] => rfl
  | (v, idx) :: t => by
    have ih := groundLoop_unit cfg hs a hz t
    have e1 : (cloudUnit s a).points = a.points.map (pointUnit s) := rfl
    have e0 : (groundUnit s cfg).minPoints = cfg.minPoints := rfl
    have e2 : (idx.filterMap fun i => (a.points.map (pointUnit s))[i]?) = (idx.filterMap fun i => a.points[i]?).map (pointUnit s) := by
      rw [List.map_filterMap]
      congr 1
      funext i
      rw [List.getElem?_map]
    simp only [groundLoop, e0, e1, voxelIsGround_unit cfg hs a.points hz, e2, ih]
    by_cases hl : (idx.length : Int) < cfg.minPoints
    · simp only [hl, if_true]
    · simp only [hl, if_false]
      by_cases hg : voxelIsGround cfg a.points v idx = true
      · simp only [hg, if_true]
      · simp only [hg, if_false, Bool.false_eq_true, List.map_append]

/-- C146, removal of the ground by cells, partial: for heights below 10^9 in both units (missing: `C146_ground_fails`). -/
theorem C146_ground_partial (cfg : GroundCfg) {s : Rat} (hs : 0 < s) (io : IterOrder (Voxel × List Nat)) (st : FState Rat)
    (out a : InnerCloud Rat) (hz : ∀ p ∈ a.points, |p.z| < 1000000000 ∧ |s * p.z| < 1000000000) :
    groundFilter (groundUnit s cfg) io (stateUnit s { st with input := some a }) (cloudUnit s out) =
      (stateUnit s (groundFilter cfg io { st with input := some a } out).1,
        cloudUnit s (groundFilter cfg io { st with input := some a } out).2) := by
  unfold groundFilter stateUnit
  simp only [Option.map_some, filterPrepare, groundTable_unit cfg hs, groundLoop_unit cfg hs a hz]
  simp only [cloudUnit, List.nil_append]

/-- C146 is false for heights of 10^9 units and more, where the program begins its search for the highest and lowest
point of a cell: one point deep below is removed as ground in kilometres and kept in millimetres. -/
theorem C146_ground_fails : ∃ (cfg : GroundCfg) (s : Rat) (io : IterOrder (Voxel × List Nat)) (a : InnerCloud Rat), 0 < s ∧
    (groundFilter cfg io { input := some a } a).2.points = [] ∧
    (groundFilter (groundUnit s cfg) io (stateUnit s { input := some a }) (cloudUnit s a)).2.points ≠ [] :=
  ⟨{ minPoints := 1 }, 1000000, ⟨id, fun _ => List.Perm.refl _⟩, ⟨⟨0, 0, 0⟩, [⟨0, 0, -2000, 0, 0⟩]⟩, by decide +kernel, by decide +kernel,
    by decide +kernel⟩

theorem bucketAll_unit (size : Rat) {s : Rat} (hs : 0 < s) (ps : List (InnerPoint Rat)) :
    bucketAll (gridKey (s * size)) (ps.map (pointUnit s)) = (bucketAll (gridKey size) ps).map fun e => (e.1, e.2.map (pointUnit s)) := by
  unfold bucketAll
  have : ∀ (l : List (InnerPoint Rat)) (t : List (Voxel × List (InnerPoint Rat))),
      (l.map (pointUnit s)).foldl (fun t x => bucketPush (gridKey (s * size) x) x t) (t.map fun e => (e.1, e.2.map (pointUnit s))) =
        (l.foldl (fun t x => bucketPush (gridKey size x) x t) t).map fun e => (e.1, e.2.map (pointUnit s)) := by
    intro l
    induction l with
    | nil => exact fun _ => rfl
    | cons q l ih =>
      intro t
      rw [List.map_cons, List.foldl_cons, List.foldl_cons]
      have e := bucketPush_head (fun v : Voxel => v) (fun _ _ h => h) (pointUnit s) (gridKey size q) q t
      have hk : gridKey (s * size) (pointUnit s q) = gridKey size q := by
        simp only [gridKey, pointUnit, share_unit hs]
      rw [hk, e]
      exact ih _
  exact this ps []

theorem sum_unit (s : Rat) (f g : InnerPoint Rat → Rat) (h : ∀ p, f (pointUnit s p) = s * g p) :
    ∀ ps : List (InnerPoint Rat), ((ps.map (pointUnit s)).map f).sum = s * (ps.map g).sum
  | [] => by simp
  | p :: ps => by
    rw [List.map_cons, List.map_cons, List.sum_cons, sum_unit s f g h ps, h, List.map_cons, List.sum_cons, mul_add]

theorem meanPoint_unit (s : Rat) (ps : List (InnerPoint Rat)) : meanPoint (ps.map (pointUnit s)) = pointUnit s (meanPoint ps) := by
  unfold meanPoint mean
  simp only [List.length_map]
  rw [sum_unit s InnerPoint.x InnerPoint.x (fun _ => rfl), sum_unit s InnerPoint.y InnerPoint.y (fun _ => rfl),
    sum_unit s InnerPoint.z InnerPoint.z (fun _ => rfl)]
  have hi : (ps.map (pointUnit s)).map InnerPoint.intensity = ps.map InnerPoint.intensity := by
    rw [List.map_map]
    rfl
  rw [hi]
  simp only [pointUnit, mul_div_assoc]

/-- C146, down-sampling by cells: the same averages, in some order. -/
theorem C146_grid (size : Rat) {s : Rat} (hs : 0 < s) (io io' : IterOrder (Voxel × List (InnerPoint Rat))) (st : FState Rat)
    (out out' a : InnerCloud Rat) :
    ∃ r r', voxelGridFilter size io { st with input := some a } out = .ok r ∧
      voxelGridFilter (s * size) io' { st with input := some (cloudUnit s a) } out' = .ok r' ∧
      r'.2.points.Perm (r.2.points.map (pointUnit s)) ∧ r'.2.stamp = r.2.stamp := by
  have he : ∀ (size : Rat) (io : IterOrder (Voxel × List (InnerPoint Rat))) (ps : List (InnerPoint Rat)),
      averageAll (io.order (bucketAll (gridKey size) ps)) = .ok ((io.order (bucketAll (gridKey size) ps)).map fun e => meanPoint e.2) := by
    intro size io ps
    refine averageAll_eq _ fun e h => ?_
    exact ((tableInv_all (gridKey size) ps).content e ((io.perm _).mem_iff.1 h)).2
  have hf : ∀ (size : Rat) (io : IterOrder (Voxel × List (InnerPoint Rat))) (b out : InnerCloud Rat),
      voxelGridFilter size io { st with input := some b } out =
      .ok (⟨some b, [], []⟩, ⟨b.stamp, (io.order (bucketAll (gridKey size) b.points)).map fun e => meanPoint e.2⟩) := by
    intro size io b out
    simp only [voxelGridFilter, filterPrepare, he, Outcome.bind_ok, Outcome.pure_eq, List.nil_append]
  refine ⟨_, _, hf size io a out, hf (s * size) io' (cloudUnit s a) out', ?_, rfl⟩
  have e1 : (cloudUnit s a).points = a.points.map (pointUnit s) := rfl
  refine ((io'.perm _).map _).trans ?_
  rw [e1, bucketAll_unit size hs, List.map_map]
  rw [show ((fun e : Voxel × List (InnerPoint Rat) => meanPoint e.2) ∘ fun e => (e.1, e.2.map (pointUnit s))) =
    pointUnit s ∘ fun e : Voxel × List (InnerPoint Rat) => meanPoint e.2 from by
      funext e
      exact meanPoint_unit s e.2]
  rw [← List.map_map]
  exact (((io.perm _).map _).map _).symm

/-! ### the static map -/

theorem cellsUnit_set (s : Rat) (m : VMap) (v : Voxel) (c : Cell) : cellsUnit s (m.set v c) = (cellsUnit s m).set v (cellUnit s c) := by
  funext w
  unfold cellsUnit VMap.set
  by_cases h : w = v
  · simp [h]
  · simp [h]

theorem getD_unit (s : Rat) (o : Option Cell) : (o.map (cellUnit s)).getD {} = cellUnit s (o.getD {}) := by
  cases o <;> rfl

theorem missAt_unit (s : Rat) (cfg : MrvmCfg) (m : VMap) (v : Voxel) :
    missAt (mapUnit s cfg) (cellsUnit s m) v = cellsUnit s (missAt cfg m v) := by
  unfold missAt
  have e : cellsUnit s m v = (m v).map (cellUnit s) := rfl
  rw [e]
  cases m v with
  | none => rfl
  | some c =>
    have hn : (cellUnit s c).needUpdate = c.needUpdate := rfl
    simp only [Option.map_some, hn]
    by_cases h : c.needUpdate = true
    · rw [if_pos h, if_pos h, cellsUnit_set]
      rfl
    · rw [if_neg h, if_neg h]

theorem missAll_unit (s : Rat) (cfg : MrvmCfg) : ∀ (l : List Voxel) (m : VMap),
    l.foldl (missAt (mapUnit s cfg)) (cellsUnit s m) = cellsUnit s (l.foldl (missAt cfg) m)
  | [], _ => rfl
  | v :: l, m => by
    rw [List.foldl_cons, List.foldl_cons, missAt_unit]
    exact missAll_unit s cfg l _

theorem hitCell_unit (s : Rat) (cfg : MrvmCfg) (p : InnerPoint Rat) (c : Cell) :
    hitCell (mapUnit s cfg) (pointUnit s p) (cellUnit s c) = cellUnit s (hitCell cfg p c) := by
  unfold hitCell cellUnit
  simp only [List.length_map, Cell.mk.injEq]
  refine ⟨rfl, trivial, rfl, ?_⟩
  have hm : (mapUnit s cfg).maxPoints = cfg.maxPoints := rfl
  rw [hm]
  by_cases h : (c.points.length : Int) < cfg.maxPoints
  · rw [if_pos h, if_pos h, List.map_append]
    rfl
  · rw [if_neg h, if_neg h]

theorem casting_unit {s : Rat} (hs : 0 < s) (a b : Vec3 Rat) (res : Rat) :
    voxelCastingBresenham (inUnit s a) (inUnit s b) (s * res) = voxelCastingBresenham a b res := by
  simp only [voxelCastingBresenham, voxelOf, inUnit, share_unit hs]

theorem insertPoint_unit {s : Rat} (hs : 0 < s) (cfg : MrvmCfg) (o : Vec3 Rat) (m : VMap) (es : List Voxel) (p : InnerPoint Rat) :
    insertPoint (mapUnit s cfg) (inUnit s o) (cellsUnit s m, es) (pointUnit s p) =
      sameWith (fun r => (cellsUnit s r.1, r.2)) (insertPoint cfg o (m, es) p) := by
  unfold insertPoint
  have hp : (⟨(pointUnit s p).x, (pointUnit s p).y, (pointUnit s p).z⟩ : Vec3 Rat) = inUnit s ⟨p.x, p.y, p.z⟩ := rfl
  have hr : (mapUnit s cfg).resolution = s * cfg.resolution := rfl
  rw [hp, hr, casting_unit hs]
  cases voxelCastingBresenham o ⟨p.x, p.y, p.z⟩ cfg.resolution with
  | abort => rfl
  | ub => rfl
  | ok path =>
    simp only [Outcome.bind_ok]
    cases path.getLast? with
    | none => rfl
    | some e =>
      have hm : cellsUnit s m e = (m e).map (cellUnit s) := rfl
      simp only [Outcome.pure_eq, sameWith]
      rw [hm, getD_unit, hitCell_unit, ← cellsUnit_set, missAll_unit]

theorem insertPoints_unit {s : Rat} (hs : 0 < s) (cfg : MrvmCfg) (o : Vec3 Rat) : ∀ (ps : List (InnerPoint Rat)) (m : VMap) (es : List Voxel),
    insertPoints (mapUnit s cfg) (inUnit s o) (cellsUnit s m, es) (ps.map (pointUnit s)) =
      sameWith (fun r => (cellsUnit s r.1, r.2)) (insertPoints cfg o (m, es) ps)
  | [], _, _ => rfl
  | p :: ps, m, es => by
    rw [List.map_cons, insertPoints, insertPoints, insertPoint_unit hs]
    cases insertPoint cfg o (m, es) p with
    | abort => rfl
    | ub => rfl
    | ok r =>
      simp only [sameWith, Outcome.bind_ok]
      exact insertPoints_unit hs cfg o ps r.1 r.2

theorem releaseAll_unit (s : Rat) : ∀ (es : List Voxel) (m : VMap), releaseAll (cellsUnit s m) es = cellsUnit s (releaseAll m es)
  | [], _ => rfl
  | e :: es, m => by
    have hm : cellsUnit s m e = (m e).map (cellUnit s) := rfl
    rw [releaseAll, releaseAll, hm, getD_unit, ← releaseAll_unit s es, cellsUnit_set]
    rfl

theorem insertCloud_unit {s : Rat} (hs : 0 < s) (cfg : MrvmCfg) (m : VMap) (c : Option (List (InnerPoint Rat)) × Vec3 Rat) :
    insertCloud (mapUnit s cfg) (cellsUnit s m) (scanUnit s c).1 (scanUnit s c).2 = sameWith (cellsUnit s) (insertCloud cfg m c.1 c.2) := by
  obtain ⟨c, o⟩ := c
  unfold insertCloud scanUnit
  cases c with
  | none => rfl
  | some ps =>
    simp only [Option.map_some, List.isEmpty_map]
    by_cases h : ps.isEmpty = true
    · rw [if_pos h, if_pos h]
      rfl
    · have ho : ({ inUnit s o with z := (inUnit s o).z + (mapUnit s cfg).zOffset } : Vec3 Rat) = inUnit s { o with z := o.z + cfg.zOffset } := by
        simp only [inUnit, mapUnit, mul_add]
      rw [if_neg h, if_neg h, ho, insertPoints_unit hs]
      cases insertPoints cfg { o with z := o.z + cfg.zOffset } (m, []) ps with
      | abort => rfl
      | ub => rfl
      | ok r =>
        simp only [sameWith, Outcome.bind_ok, Outcome.pure_eq]
        rw [releaseAll_unit]

theorem insertClouds_unit {s : Rat} (hs : 0 < s) (cfg : MrvmCfg) : ∀ (cs : List (Option (List (InnerPoint Rat)) × Vec3 Rat)) (m : VMap),
    insertClouds (mapUnit s cfg) (cellsUnit s m) (cs.map (scanUnit s)) = sameWith (cellsUnit s) (insertClouds cfg m cs)
  | [], _ => rfl
  | c :: cs, m => by
    rw [List.map_cons, insertClouds, insertClouds, insertCloud_unit hs]
    cases insertCloud cfg m c.1 c.2 with
    | abort => rfl
    | ub => rfl
    | ok r =>
      simp only [sameWith, Outcome.bind_ok]
      exact insertClouds_unit hs cfg cs r

/-- C146, the static map: with scans, places, size of the voxels and offset in the other unit, the same voxels are
stored with the same probabilities, and their points are the same points in the other unit. -/
theorem C146_map {s : Rat} (hs : 0 < s) (cfg : MrvmCfg) (cs : List (Option (List (InnerPoint Rat)) × Vec3 Rat)) :
    insertClouds (mapUnit s cfg) (fun _ => none) (cs.map (scanUnit s)) =
      sameWith (cellsUnit s) (insertClouds cfg (fun _ => none) cs) :=
  insertClouds_unit hs cfg cs fun _ => none

theorem outputCell_unit (s : Rat) (cfg : MrvmCfg) (c : Cell) :
    outputCell (mapUnit s cfg) (cellUnit s c) = ((outputCell cfg c).1.map (pointUnit s), cellUnit s (outputCell cfg c).2) := by
  have ha : (mapUnit s cfg).outputAverage = cfg.outputAverage := rfl
  have hu : (mapUnit s cfg).useMaxIntensity = cfg.useMaxIntensity := rfl
  unfold outputCell
  rw [ha, hu]
  by_cases h : cfg.outputAverage = true
  · rw [if_pos h, if_pos h]
    simp only [cellUnit, List.length_map, List.map_cons, List.map_nil]
    rw [sum_unit s InnerPoint.x InnerPoint.x (fun _ => rfl), sum_unit s InnerPoint.y InnerPoint.y (fun _ => rfl),
      sum_unit s InnerPoint.z InnerPoint.z (fun _ => rfl)]
    simp only [pointUnit, mul_div_assoc]
  · rw [if_neg h, if_neg h]
    by_cases hm : cfg.useMaxIntensity = true
    · rw [if_pos hm, if_pos hm]
      simp only [cellUnit, List.map_map]
      exact Prod.ext rfl rfl
    · rw [if_neg hm, if_neg hm]
      rfl

theorem outputCells_unit (s : Rat) (cfg : MrvmCfg) (t : Nat) : ∀ l : List (Voxel × Cell),
    outputCells (mapUnit s cfg) t (l.map (entryUnit s)) =
      sameWith (fun r => (r.1.map (pointUnit s), r.2.map (entryUnit s))) (outputCells cfg t l)
  | [] => rfl
  | (v, c) :: l => by
    rw [List.map_cons, entryUnit, outputCells, outputCells, outputCells_unit s cfg t l]
    have hp : (cellUnit s c).prob = c.prob := rfl
    rw [hp]
    by_cases h : c.prob ≥ t
    · rw [if_pos h, if_pos h]
      by_cases hn : c.points = []
      · have hn' : (cellUnit s c).points = [] := by simp [cellUnit, hn]
        rw [Outcome.check_neg (not_not.2 hn), Outcome.check_neg (not_not.2 hn')]
        rfl
      · have hn' : (cellUnit s c).points ≠ [] := by simpa [cellUnit] using hn
        rw [Outcome.check_pos hn, Outcome.check_pos hn', Outcome.bind_ok, Outcome.bind_ok]
        cases outputCells cfg t l with
        | abort => rfl
        | ub => rfl
        | ok r =>
          simp only [sameWith, Outcome.bind_ok, Outcome.pure_eq, outputCell_unit, List.map_append, List.map_cons]
          rfl
    · rw [if_neg h, if_neg h]
      cases outputCells cfg t l <;> rfl

/-- C146, the cloud written from the static map. -/
theorem C146_output (s : Rat) (cfg : MrvmCfg) (threshold : Rat) (table : List (Voxel × Cell)) :
    outputCloud (mapUnit s cfg) threshold (table.map (entryUnit s)) =
      sameWith (fun r => (r.1.map (pointUnit s), r.2.map (entryUnit s))) (outputCloud cfg threshold table) := by
  unfold outputCloud
  cases threshold8 threshold with
  | abort => rfl
  | ub => rfl
  | ok t =>
    simp only [Outcome.bind_ok]
    exact outputCells_unit s cfg t table

example : (1 : Mat4 Rat) 3 = ![0, 0, 0, 1] := by decide +kernel
-- metres and centimetres; the exact square root meets the hypothesis of the range filter
example : (0 : ℝ) < 100 ∧ ∀ x : ℝ, 0 ≤ x → Real.sqrt (100 * 100 * x) = 100 * Real.sqrt x :=
  ⟨by norm_num, fun x _ => by rw [Real.sqrt_mul (by norm_num), Real.sqrt_mul_self (by norm_num)]⟩
example : (match insertClouds (mapUnit 100 ⟨10, 7 / 10, 4 / 10, 1, 0, false, false⟩) (fun _ => none)
    ([(some [⟨1, 2, 3, 5, 0⟩], ⟨0, 0, 0⟩)].map (scanUnit 100)) with
    | .ok m => (m ⟨1, 2, 3⟩).map fun c => c.points
    | _ => none) = some [⟨100, 200, 300, 5, 0⟩] := by decide +kernel
example : (0 : Rat) < 100 ∧ ∀ p ∈ [(⟨1, 2, -3, 5, 0⟩ : InnerPoint Rat)], |p.z| < 1000000000 ∧ |100 * p.z| < 1000000000 := by
  refine ⟨by norm_num, fun p hp => ?_⟩
  rw [List.mem_singleton.1 hp]
  constructor <;> norm_num [abs_lt]
example : pointUnit 100 (⟨1, 2, -3, 5, 0⟩ : InnerPoint Rat) = ⟨100, 200, -300, 5, 0⟩ := by
  simp only [pointUnit]
  norm_num
end Verif
