import Verif.Spec.Brightness
import Verif.Model.FrontEnd
import Verif.Model.CloudGeom
import Verif.Props.Heading
/-! C143: how bright the points are does not change the shape of the map. -/
namespace Verif
open Spec
section
variable {R : Type} [Field R] [LinearOrder R]

theorem dimPoint_twice (p : InnerPoint R) : dimPoint (dimPoint p) = dimPoint p := rfl

theorem dimPoint_eq (p q : InnerPoint R) : dimPoint p = dimPoint q ↔ p.x = q.x ∧ p.y = q.y ∧ p.z = q.z ∧ p.factor = q.factor := by
  unfold dimPoint
  simp only [InnerPoint.mk.injEq, true_and]

/-- Two clouds have the same shape exactly if they are equal without brightness. -/
theorem C143_shape (a b : InnerCloud R) : SameShape a b ↔ dimCloud a = dimCloud b := by
  obtain ⟨sa, pa⟩ := a
  obtain ⟨sb, pb⟩ := b
  unfold SameShape dimCloud
  simp only [InnerCloud.mk.injEq]
  refine and_congr_right fun _ => ?_
  constructor
  · rintro ⟨hl, h⟩
    refine List.ext_getElem? fun i => ?_
    rw [List.getElem?_map, List.getElem?_map]
    by_cases hi : i < pa.length
    · have hj : i < pb.length := hl ▸ hi
      rw [List.getElem?_eq_getElem hi, List.getElem?_eq_getElem hj]
      simp only [Option.map_some, Option.some.injEq]
      exact (dimPoint_eq _ _).mpr (h i _ _ (List.getElem?_eq_getElem hi) (List.getElem?_eq_getElem hj))
    · rw [List.getElem?_eq_none (not_lt.mp hi), List.getElem?_eq_none (by omega)]
  · intro h
    have hl : pa.length = pb.length := by
      have := congrArg List.length h
      simpa using this
    refine ⟨hl, fun i p q hp hq => ?_⟩
    have := congrArg (fun l => l[i]?) h
    simp only [List.getElem?_map, hp, hq, Option.map_some, Option.some.injEq] at this
    exact (dimPoint_eq p q).mp this

/-! ### filters -/

theorem scanFrom_dim {σ : Type} (keep : σ → Nat → InnerPoint R → Bool × σ) (h : ∀ s i p, keep s i (dimPoint p) = keep s i p) :
    ∀ (ps : List (InnerPoint R)) (s : σ) (i : Nat), scanFrom keep s i (ps.map dimPoint) =
      (⟨(scanFrom keep s i ps).1.inl, (scanFrom keep s i ps).1.outl, (scanFrom keep s i ps).1.pts.map dimPoint⟩, (scanFrom keep s i ps).2)
  | [], _, _ => rfl
  | p :: ps, s, i => by
    have ih := scanFrom_dim keep h ps (keep s i p).2 (i + 1)
    simp only [List.map_cons, scanFrom, h, ih]
    by_cases hk : (keep s i p).1 = true
    · simp only [hk, if_true, List.map_cons]
    · simp only [hk, if_false, Bool.false_eq_true]

theorem runScan_dim (keep : Nat → InnerPoint R → Bool) (h : ∀ i p, keep i (dimPoint p) = keep i p) (st : FState R) (out : InnerCloud R) :
    runScan keep (dimState st) (dimCloud out) = (dimState (runScan keep st out).1, dimCloud (runScan keep st out).2) := by
  obtain ⟨inp, il, ol⟩ := st
  cases inp with
  | none => rfl
  | some a =>
    unfold runScan dimState
    simp only [Option.map_some, filterPrepare]
    have e := scanFrom_dim (fun (_ : Unit) i p => (keep i p, ())) (fun s i p => by simp only [h]) a.points () 0
    simp only [dimCloud, e, List.map_append, List.map_nil]

theorem copyAll_dim (st : FState R) (out : InnerCloud R) :
    copyAll (dimState st) (dimCloud out) = (dimState (copyAll st out).1, dimCloud (copyAll st out).2) := by
  obtain ⟨inp, il, ol⟩ := st
  cases inp with
  | none => rfl
  | some a =>
    unfold copyAll dimState
    simp [dimCloud]

/-- C143, range filter. -/
theorem C143_range (sqrt : R → R) (mn mx : R) (st : FState R) (out : InnerCloud R) :
    rangeFilter sqrt mn mx (dimState st) (dimCloud out) = (dimState (rangeFilter sqrt mn mx st out).1, dimCloud (rangeFilter sqrt mn mx st out).2) :=
  runScan_dim _ (fun _ _ => rfl) st out

/-- C143, limits along an axis. -/
theorem C143_axis (limit mn mx : R) (axis : Int) (st : FState R) (out : InnerCloud R) :
    axisFilter limit mn mx axis (dimState st) (dimCloud out) =
      (dimState (axisFilter limit mn mx axis st out).1, dimCloud (axisFilter limit mn mx axis st out).2) := by
  unfold axisFilter
  by_cases h : mn = -limit ∧ mx = limit
  · rw [if_pos h, if_pos h]
    exact copyAll_dim st out
  · rw [if_neg h, if_neg h]
    exact runScan_dim _ (fun _ _ => rfl) st out

/-- C143, random sample with the same random numbers. -/
theorem C143_random (almostOne rate : R) (draws : Nat → R) (st : FState R) (out : InnerCloud R) :
    randomFilter almostOne rate draws (dimState st) (dimCloud out) =
      (dimState (randomFilter almostOne rate draws st out).1, dimCloud (randomFilter almostOne rate draws st out).2) := by
  unfold randomFilter
  by_cases h : rate > almostOne
  · rw [if_pos h, if_pos h]
    exact copyAll_dim st out
  · rw [if_neg h, if_neg h]
    exact runScan_dim _ (fun _ _ => rfl) st out

/-- C143, box. -/
theorem C143_box (mn mx : Vec3 R) (st : FState R) (out : InnerCloud R) :
    bboxFilter mn mx (dimState st) (dimCloud out) = sameWith (fun r => (dimState r.1, dimCloud r.2)) (bboxFilter mn mx st out) := by
  have hr := runScan_dim (fun _ p => !boxContains mn mx p) (fun _ _ => rfl) st out
  obtain ⟨inp, il, ol⟩ := st
  cases inp with
  | none => rfl
  | some a =>
    unfold bboxFilter
    simp only [dimState, Option.map_some] at hr ⊢
    by_cases h : mn.x < mx.x ∧ mn.y < mx.y ∧ mn.z < mx.z
    · rw [Outcome.check_pos h]
      simp only [Outcome.bind_ok, Outcome.pure_eq, sameWith, hr]
    · rw [Outcome.check_neg h]
      rfl

theorem pickPoints_dim (ps : List (InnerPoint R)) : ∀ l : List Nat, pickPoints (ps.map dimPoint) l = sameWith (List.map dimPoint) (pickPoints ps l)
  | [] => rfl
  | i :: is => by
    rw [pickPoints, pickPoints, List.getElem?_map, pickPoints_dim ps is]
    cases ps[i]? with
    | none => rfl
    | some p =>
      simp only [Option.map_some]
      cases pickPoints ps is <;> rfl

/-- C143, range image: as row, column and distance of a point do not depend on its brightness, neither do the image and the points kept. -/
theorem C143_image (near tiny : R) (G : ImageGeom R) (hd : ∀ p, G.xyDist (dimPoint p) = G.xyDist p) (hr : ∀ p, G.row (dimPoint p) = G.row p)
    (hc : ∀ p, G.col (dimPoint p) = G.col p) (hg : ∀ p, G.range (dimPoint p) = G.range p) (rows cols : Int) (st : ImageFilter R) (out : InnerCloud R) :
    ImageFilter.filter near tiny G rows cols { st with base := dimState st.base } (dimCloud out) =
      sameWith (fun r => (({ r.1 with base := dimState r.1.base } : ImageFilter R), dimCloud r.2)) (ImageFilter.filter near tiny G rows cols st out) := by
  obtain ⟨⟨inp, il, ol⟩, img⟩ := st
  cases inp with
  | none => rfl
  | some a =>
    unfold ImageFilter.filter
    simp only [dimState, Option.map_some]
    have e := scanFrom_dim (imageKeep near tiny G rows cols) (fun s i p => by simp only [imageKeep, hd, hr, hc, hg]) a.points img 0
    have e1 : (dimCloud a).points = a.points.map dimPoint := rfl
    simp only [e1, e, pickPoints_dim]
    cases pickPoints a.points (scanFrom (imageKeep near tiny G rows cols) img 0 a.points).1.inl <;> rfl

theorem setInput_dim (st : FState R) (a : InnerCloud R) : st.setInput (some (dimCloud a)) = dimState (st.setInput (some a)) := by
  unfold FState.setInput dimState dimCloud
  simp only [List.isEmpty_map]
  by_cases h : a.points.isEmpty = true
  · rw [if_pos h, if_pos h]
    rfl
  · rw [if_neg h, if_neg h]
    rfl

/-- A filter with the property of the theorems above is a member of a chain that is blind to brightness. -/
theorem C143_member (f : FState R → InnerCloud R → FState R × InnerCloud R)
    (h : ∀ st out, f (dimState st) (dimCloud out) = (dimState (f st out).1, dimCloud (f st out).2)) (st : FState R) : BlindToLight (stageOf f st) := by
  intro a out
  unfold stageOf
  rw [setInput_dim, h]

theorem chainLoop_dim : ∀ (stages : List (Stage R)), (∀ f ∈ stages, BlindToLight f) → ∀ m1 m2 : InnerCloud R,
    chainLoop stages (dimCloud m1) (dimCloud m2) = dimCloud (chainLoop stages m1 m2)
  | [], _, _, _ => rfl
  | f :: fs, h, m1, m2 => by
    rw [chainLoop, chainLoop, h f (by simp) m1 m2]
    exact chainLoop_dim fs (fun g hg => h g (by simp [hg])) _ _

/-- C143, a chain of filters: clouds of the same shape give clouds of the same shape. -/
theorem C143_chain (stages : List (Stage R)) (h : ∀ f ∈ stages, BlindToLight f) (st : FState R) (out a b : InnerCloud R) (hab : SameShape a b) :
    SameShape (factoryFilter stages { st with input := some a } out).2 (factoryFilter stages { st with input := some b } out).2 := by
  have key : ∀ c : InnerCloud R, dimCloud (factoryFilter stages { st with input := some c } out).2 =
      (factoryFilter stages { st with input := some (dimCloud c) } out).2 := by
    intro c
    unfold factoryFilter
    simp only [filterPrepare]
    cases stages with
    | nil => rfl
    | cons f fs =>
      have e : (freshCloud : InnerCloud R) = dimCloud freshCloud := rfl
      simp only
      rw [e, chainLoop_dim (f :: fs) h c freshCloud, ← e]
  rw [C143_shape] at hab ⊢
  rw [key, key, hab]

/-! ### moving points -/

/-- C143, moving a cloud. -/
theorem C143_move (T : Mat4 R) (a b : InnerCloud R) (hab : SameShape a b) : SameShape (transformInplace T a) (transformInplace T b) := by
  have key : ∀ c : InnerCloud R, dimCloud (transformInplace T c) = transformInplace T (dimCloud c) := by
    intro c
    unfold transformInplace dimCloud
    simp only [List.map_map]
    rfl
  rw [C143_shape] at hab ⊢
  rw [key, key, hab]

theorem compensatePoints_dim (slerp : Matrix (Fin 3) (Fin 3) R → Matrix (Fin 3) (Fin 3) R → R → Matrix (Fin 3) (Fin 3) R) (delta : Rigid R) :
    ∀ ps : List (InnerPoint R), compensatePoints slerp delta (ps.map dimPoint) = sameWith (List.map dimPoint) (compensatePoints slerp delta ps)
  | [] => rfl
  | p :: ps => by
    rw [List.map_cons, compensatePoints, compensatePoints, compensatePoints_dim slerp delta ps]
    have : compensatePoint slerp delta (dimPoint p) = sameWith dimPoint (compensatePoint slerp delta p) := by
      unfold compensatePoint
      have hf : (dimPoint p).factor = p.factor := rfl
      rw [hf]
      cases interpolateTransform slerp Rigid.id delta p.factor <;> rfl
    rw [this]
    cases compensatePoint slerp delta p with
    | abort => rfl
    | ub => rfl
    | ok q =>
      simp only [sameWith, Outcome.bind_ok]
      cases compensatePoints slerp delta ps <;> rfl

/-- C143, motion compensation. -/
theorem C143_compensation (slerp : Matrix (Fin 3) (Fin 3) R → Matrix (Fin 3) (Fin 3) R → R → Matrix (Fin 3) (Fin 3) R) (delta : Rigid R)
    (raw out : InnerCloud R) :
    motionCompensation slerp (dimCloud raw) delta (dimCloud out) = sameWith dimCloud (motionCompensation slerp raw delta out) := by
  unfold motionCompensation
  have e1 : (dimCloud raw).points = raw.points.map dimPoint := rfl
  rw [e1, compensatePoints_dim]
  cases compensatePoints slerp delta raw.points <;> rfl
end

/-! ### filters with cells -/

theorem groundTable_dim (cfg : GroundCfg) (a : InnerCloud Rat) : groundTable cfg (dimCloud a) = groundTable cfg a := by
  unfold groundTable dimCloud
  simp only
  rw [List.zipIdx_map, List.foldl_map]
  rfl

theorem voxelIsGround_dim (cfg : GroundCfg) (ps : List (InnerPoint Rat)) (v : Voxel) (idx : List Nat) :
    voxelIsGround cfg (ps.map dimPoint) v idx = voxelIsGround cfg ps v idx := by
  unfold voxelIsGround
  have e : (idx.filterMap fun i => (ps.map dimPoint)[i]?).map InnerPoint.z = (idx.filterMap fun i => ps[i]?).map InnerPoint.z := by
    rw [List.map_filterMap, List.map_filterMap]
    congr 1
    funext i
    rw [List.getElem?_map]
    cases ps[i]? <;> rfl
  rw [e]

theorem groundLoop_dim (cfg : GroundCfg) (a : InnerCloud Rat) : ∀ t : List (Voxel × List Nat),
    groundLoop cfg (dimCloud a) t = ⟨(groundLoop cfg a t).inl, (groundLoop cfg a t).outl, (groundLoop cfg a t).pts.map dimPoint⟩
  | [] => rfl
  | (v, idx) :: t => by
    have ih := groundLoop_dim cfg a t
    have e1 : (dimCloud a).points = a.points.map dimPoint := rfl
    have e2 : (idx.filterMap fun i => (a.points.map dimPoint)[i]?) = (idx.filterMap fun i => a.points[i]?).map dimPoint := by
      rw [List.map_filterMap]
      congr 1
      funext i
      rw [List.getElem?_map]
    simp only [groundLoop, e1, voxelIsGround_dim, e2, ih]
    by_cases hs : (idx.length : Int) < cfg.minPoints
    · simp only [hs, if_true]
    · simp only [hs, if_false]
      by_cases hg : voxelIsGround cfg a.points v idx = true
      · simp only [hg, if_true]
      · simp only [hg, if_false, Bool.false_eq_true, List.map_append]

/-- C143, removal of the ground by cells. -/
theorem C143_ground (cfg : GroundCfg) (io : IterOrder (Voxel × List Nat)) (st : FState Rat) (out : InnerCloud Rat) :
    groundFilter cfg io (dimState st) (dimCloud out) = (dimState (groundFilter cfg io st out).1, dimCloud (groundFilter cfg io st out).2) := by
  obtain ⟨inp, il, ol⟩ := st
  cases inp with
  | none => rfl
  | some a =>
    unfold groundFilter dimState
    simp only [Option.map_some, filterPrepare, groundTable_dim, groundLoop_dim]
    simp only [dimCloud, List.nil_append]

theorem bucketAll_dim (size : Rat) (ps : List (InnerPoint Rat)) :
    bucketAll (gridKey size) (ps.map dimPoint) = (bucketAll (gridKey size) ps).map fun e => (e.1, e.2.map dimPoint) := by
  unfold bucketAll
  have : ∀ (l : List (InnerPoint Rat)) (t : List (Voxel × List (InnerPoint Rat))),
      (l.map dimPoint).foldl (fun t x => bucketPush (gridKey size x) x t) (t.map fun e => (e.1, e.2.map dimPoint)) =
        (l.foldl (fun t x => bucketPush (gridKey size x) x t) t).map fun e => (e.1, e.2.map dimPoint) := by
    intro l
    induction l with
    | nil => exact fun _ => rfl
    | cons q l ih =>
      intro t
      rw [List.map_cons, List.foldl_cons, List.foldl_cons]
      have e := bucketPush_head (fun v : Voxel => v) (fun _ _ h => h) (dimPoint (R := Rat)) (gridKey size q) q t
      have hk : gridKey size (dimPoint q) = gridKey size q := rfl
      rw [hk, e]
      exact ih _
  exact this ps []

theorem meanPoint_dim (ps : List (InnerPoint Rat)) : meanPoint (ps.map dimPoint) = dimPoint (meanPoint ps) := by
  have hx : (ps.map dimPoint).map InnerPoint.x = ps.map InnerPoint.x := by
    rw [List.map_map]
    rfl
  have hy : (ps.map dimPoint).map InnerPoint.y = ps.map InnerPoint.y := by
    rw [List.map_map]
    rfl
  have hz : (ps.map dimPoint).map InnerPoint.z = ps.map InnerPoint.z := by
    rw [List.map_map]
    rfl
  have hi : mean ((ps.map dimPoint).map InnerPoint.intensity) = 0 := by
    have : ((ps.map dimPoint).map InnerPoint.intensity).sum = 0 := by
      induction ps with
      | nil => rfl
      | cons a l ih =>
        rw [List.map_cons, List.map_cons, List.sum_cons, ih (by rw [List.map_map]; rfl) (by rw [List.map_map]; rfl) (by rw [List.map_map]; rfl)]
        simp [dimPoint]
    unfold mean
    rw [this, zero_div]
  unfold meanPoint
  rw [hx, hy, hz, hi]
  rfl

/-- C143, down-sampling by cells: the same averages, in some order. -/
theorem C143_grid (size : Rat) (io io' : IterOrder (Voxel × List (InnerPoint Rat))) (st : FState Rat) (out out' a b : InnerCloud Rat) (hab : SameShape a b) :
    ∃ r r', voxelGridFilter size io { st with input := some a } out = .ok r ∧ voxelGridFilter size io' { st with input := some b } out' = .ok r' ∧
      (r'.2.points.map dimPoint).Perm (r.2.points.map dimPoint) ∧ r'.2.stamp = r.2.stamp := by
  have he : ∀ (io : IterOrder (Voxel × List (InnerPoint Rat))) (ps : List (InnerPoint Rat)),
      averageAll (io.order (bucketAll (gridKey size) ps)) = .ok ((io.order (bucketAll (gridKey size) ps)).map fun e => meanPoint e.2) := by
    intro io ps
    refine averageAll_eq _ fun e h => ?_
    exact ((tableInv_all (gridKey size) ps).content e ((io.perm _).mem_iff.1 h)).2
  have hf : ∀ (io : IterOrder (Voxel × List (InnerPoint Rat))) (b out : InnerCloud Rat), voxelGridFilter size io { st with input := some b } out =
      .ok (⟨some b, [], []⟩, ⟨b.stamp, (io.order (bucketAll (gridKey size) b.points)).map fun e => meanPoint e.2⟩) := by
    intro io b out
    simp only [voxelGridFilter, filterPrepare, he, Outcome.bind_ok, Outcome.pure_eq, List.nil_append]
  have hd : ∀ (io : IterOrder (Voxel × List (InnerPoint Rat))) (b : InnerCloud Rat),
      (((io.order (bucketAll (gridKey size) b.points)).map fun e => meanPoint e.2).map dimPoint).Perm
        ((bucketAll (gridKey size) (dimCloud b).points).map fun e => meanPoint e.2) := by
    intro io b
    have e1 : (dimCloud b).points = b.points.map dimPoint := rfl
    rw [e1, bucketAll_dim, List.map_map, List.map_map]
    rw [show ((fun e : Voxel × List (InnerPoint Rat) => meanPoint e.2) ∘ fun e => (e.1, e.2.map dimPoint)) =
      dimPoint ∘ fun e : Voxel × List (InnerPoint Rat) => meanPoint e.2 from by
        funext e
        exact meanPoint_dim e.2]
    exact (io.perm _).map _
  have hs := (C143_shape a b).mp hab
  refine ⟨_, _, hf io a out, hf io' b out', ?_, hab.1.symm⟩
  refine (hd io' b).trans ?_
  rw [← hs]
  exact (hd io a).symm

/-! ### the static map -/

theorem dimMap_set (m : VMap) (v : Voxel) (c : Cell) : dimMap (m.set v c) = (dimMap m).set v (dimCell c) := by
  funext w
  unfold dimMap VMap.set
  by_cases h : w = v
  · simp [h]
  · simp [h]

theorem getD_dim (o : Option Cell) : (o.map dimCell).getD {} = dimCell (o.getD {}) := by
  cases o <;> rfl

theorem missAt_dim (cfg : MrvmCfg) (m : VMap) (v : Voxel) : missAt cfg (dimMap m) v = dimMap (missAt cfg m v) := by
  unfold missAt
  have e : dimMap m v = (m v).map dimCell := rfl
  rw [e]
  cases m v with
  | none => rfl
  | some c =>
    have hn : (dimCell c).needUpdate = c.needUpdate := rfl
    simp only [Option.map_some, hn]
    by_cases h : c.needUpdate = true
    · rw [if_pos h, if_pos h, dimMap_set]
      rfl
    · rw [if_neg h, if_neg h]

theorem missAll_dim (cfg : MrvmCfg) : ∀ (l : List Voxel) (m : VMap), l.foldl (missAt cfg) (dimMap m) = dimMap (l.foldl (missAt cfg) m)
  | [], _ => rfl
  | v :: l, m => by
    rw [List.foldl_cons, List.foldl_cons, missAt_dim]
    exact missAll_dim cfg l _

theorem hitCell_dim (cfg : MrvmCfg) (p : InnerPoint Rat) (c : Cell) : hitCell cfg (dimPoint p) (dimCell c) = dimCell (hitCell cfg p c) := by
  unfold hitCell dimCell
  simp only [List.length_map, Cell.mk.injEq]
  refine ⟨trivial, trivial, by simp [dimPoint, truncInt], ?_⟩
  by_cases h : (c.points.length : Int) < cfg.maxPoints
  · rw [if_pos h, if_pos h, List.map_append]
    rfl
  · rw [if_neg h, if_neg h]

theorem insertPoint_dim (cfg : MrvmCfg) (o : Vec3 Rat) (m : VMap) (es : List Voxel) (p : InnerPoint Rat) :
    insertPoint cfg o (dimMap m, es) (dimPoint p) = sameWith (fun r => (dimMap r.1, r.2)) (insertPoint cfg o (m, es) p) := by
  unfold insertPoint
  have hp : (⟨(dimPoint p).x, (dimPoint p).y, (dimPoint p).z⟩ : Vec3 Rat) = ⟨p.x, p.y, p.z⟩ := rfl
  rw [hp]
  cases voxelCastingBresenham o ⟨p.x, p.y, p.z⟩ cfg.resolution with
  | abort => rfl
  | ub => rfl
  | ok path =>
    simp only [Outcome.bind_ok]
    cases path.getLast? with
    | none => rfl
    | some e =>
      have hm : dimMap m e = (m e).map dimCell := rfl
      simp only [Outcome.pure_eq, sameWith]
      rw [hm, getD_dim, hitCell_dim, ← dimMap_set, missAll_dim]

theorem insertPoints_dim (cfg : MrvmCfg) (o : Vec3 Rat) : ∀ (ps : List (InnerPoint Rat)) (m : VMap) (es : List Voxel),
    insertPoints cfg o (dimMap m, es) (ps.map dimPoint) = sameWith (fun r => (dimMap r.1, r.2)) (insertPoints cfg o (m, es) ps)
  | [], _, _ => rfl
  | p :: ps, m, es => by
    rw [List.map_cons, insertPoints, insertPoints, insertPoint_dim]
    cases insertPoint cfg o (m, es) p with
    | abort => rfl
    | ub => rfl
    | ok r =>
      simp only [sameWith, Outcome.bind_ok]
      exact insertPoints_dim cfg o ps r.1 r.2

theorem releaseAll_dim : ∀ (es : List Voxel) (m : VMap), releaseAll (dimMap m) es = dimMap (releaseAll m es)
  | [], _ => rfl
  | e :: es, m => by
    have hm : dimMap m e = (m e).map dimCell := rfl
    rw [releaseAll, releaseAll, hm, getD_dim, ← releaseAll_dim es, dimMap_set]
    rfl

theorem insertCloud_dim (cfg : MrvmCfg) (m : VMap) (c : Option (List (InnerPoint Rat)) × Vec3 Rat) :
    insertCloud cfg (dimMap m) (dimScan c).1 (dimScan c).2 = sameWith dimMap (insertCloud cfg m c.1 c.2) := by
  obtain ⟨c, o⟩ := c
  unfold insertCloud dimScan
  cases c with
  | none => rfl
  | some ps =>
    simp only [Option.map_some, List.isEmpty_map]
    by_cases h : ps.isEmpty = true
    · rw [if_pos h, if_pos h]
      rfl
    · rw [if_neg h, if_neg h, insertPoints_dim]
      cases insertPoints cfg { o with z := o.z + cfg.zOffset } (m, []) ps with
      | abort => rfl
      | ub => rfl
      | ok r =>
        simp only [sameWith, Outcome.bind_ok, Outcome.pure_eq]
        rw [releaseAll_dim]

theorem insertClouds_dim (cfg : MrvmCfg) : ∀ (cs : List (Option (List (InnerPoint Rat)) × Vec3 Rat)) (m : VMap),
    insertClouds cfg (dimMap m) (cs.map dimScan) = sameWith dimMap (insertClouds cfg m cs)
  | [], _ => rfl
  | c :: cs, m => by
    rw [List.map_cons, insertClouds, insertClouds, insertCloud_dim]
    cases insertCloud cfg m c.1 c.2 with
    | abort => rfl
    | ub => rfl
    | ok r =>
      simp only [sameWith, Outcome.bind_ok]
      exact insertClouds_dim cfg cs r

/-- C143, the map: scans that differ in nothing but brightness give maps with the same voxels, the same probabilities and points at the same
places; also if the program is stopped, it is stopped for both. -/
theorem C143_map (cfg : MrvmCfg) (cs ds : List (Option (List (InnerPoint Rat)) × Vec3 Rat)) (h : cs.map dimScan = ds.map dimScan) :
    sameWith dimMap (insertClouds cfg (fun _ => none) cs) = sameWith dimMap (insertClouds cfg (fun _ => none) ds) := by
  rw [← insertClouds_dim, ← insertClouds_dim, h]

theorem outputCell_dim (cfg : MrvmCfg) (c : Cell) :
    outputCell cfg (dimCell c) = ((outputCell cfg c).1.map dimPoint, dimCell (outputCell cfg c).2) := by
  have hs : ∀ f : InnerPoint Rat → Rat, (∀ p, f (dimPoint p) = f p) → (c.points.map dimPoint).map f = c.points.map f := by
    intro f hf
    rw [List.map_map]
    congr 1
    funext p
    exact hf p
  unfold outputCell
  by_cases h : cfg.outputAverage = true
  · rw [if_pos h, if_pos h]
    simp only [dimCell, List.length_map, List.map_cons, List.map_nil]
    rw [hs InnerPoint.x (fun _ => rfl), hs InnerPoint.y (fun _ => rfl), hs InnerPoint.z (fun _ => rfl)]
    simp [dimPoint]
  · rw [if_neg h, if_neg h]
    by_cases hm : cfg.useMaxIntensity = true
    · rw [if_pos hm, if_pos hm]
      simp only [dimCell, List.map_map]
      refine Prod.ext ?_ ?_
      · simp [dimPoint, Function.comp_def]
      · simp [dimPoint, Function.comp_def]
    · rw [if_neg hm, if_neg hm]
      rfl

theorem outputCells_dim (cfg : MrvmCfg) (t : Nat) : ∀ l : List (Voxel × Cell),
    outputCells cfg t (l.map dimEntry) = sameWith (fun r => (r.1.map dimPoint, r.2.map dimEntry)) (outputCells cfg t l)
  | [] => rfl
  | (v, c) :: l => by
    rw [List.map_cons, dimEntry, outputCells, outputCells, outputCells_dim cfg t l]
    have hp : (dimCell c).prob = c.prob := rfl
    rw [hp]
    by_cases h : c.prob ≥ t
    · rw [if_pos h, if_pos h]
      by_cases hn : c.points = []
      · have : (dimCell c).points = [] := by simp [dimCell, hn]
        rw [Outcome.check_neg (fun hh => hh this), Outcome.check_neg (fun hh => hh hn)]
        rfl
      · have : (dimCell c).points ≠ [] := by simpa [dimCell] using hn
        rw [Outcome.check_pos this, Outcome.check_pos hn]
        cases outputCells cfg t l with
        | abort => rfl
        | ub => rfl
        | ok r =>
          simp only [sameWith, Outcome.bind_ok, Outcome.pure_eq]
          rw [outputCell_dim, List.map_append, List.map_cons]
          rfl
    · rw [if_neg h, if_neg h]
      cases outputCells cfg t l with
      | abort => rfl
      | ub => rfl
      | ok r => rfl

/-- C143, the cloud that is written: from voxels of the same shape, points at the same places. -/
theorem C143_output (cfg : MrvmCfg) (threshold : Rat) (s t : List (Voxel × Cell)) (h : s.map dimEntry = t.map dimEntry) :
    sameWith (fun r => r.1.map dimPoint) (outputCloud cfg threshold s) = sameWith (fun r => r.1.map dimPoint) (outputCloud cfg threshold t) := by
  have key : ∀ l : List (Voxel × Cell), sameWith (fun r => r.1.map dimPoint) (outputCloud cfg threshold l) =
      sameWith Prod.fst (outputCloud cfg threshold (l.map dimEntry)) := by
    intro l
    unfold outputCloud
    cases threshold8 threshold with
    | abort => rfl
    | ub => rfl
    | ok u =>
      simp only [Outcome.bind_ok]
      rw [outputCells_dim]
      cases outputCells cfg u l <;> rfl
  rw [key, key, h]

theorem outputCellRgb_dim (cfg : MrvmCfg) (c : Cell) : (outputCellRgb cfg (dimCell c)).map greyPlace = (outputCellRgb cfg c).map greyPlace := by
  have hs : ∀ f : InnerPoint Rat → Rat, (∀ p, f (dimPoint p) = f p) → (c.points.map dimPoint).map f = c.points.map f := by
    intro f hf
    rw [List.map_map]
    congr 1
    funext p
    exact hf p
  unfold outputCellRgb
  obtain ⟨g, hg⟩ : ∃ g, g = rgbOf (dimCell c).maxIntensity.toNat := ⟨_, rfl⟩
  obtain ⟨g', hg'⟩ : ∃ g', g' = rgbOf c.maxIntensity.toNat := ⟨_, rfl⟩
  rw [← hg, ← hg']
  clear hg hg'
  have hp : (dimCell c).points = c.points.map dimPoint := rfl
  rw [hp]
  by_cases ha : cfg.outputAverage = true
  · rw [if_pos ha, if_pos ha]
    simp only [List.length_map, List.map_cons, List.map_nil, greyPlace]
    rw [hs InnerPoint.x (fun _ => rfl), hs InnerPoint.y (fun _ => rfl), hs InnerPoint.z (fun _ => rfl)]
  · rw [if_neg ha, if_neg ha, List.map_map, List.map_map, List.map_map]
    rfl

theorem outputCellsRgb_dim (cfg : MrvmCfg) (t : Nat) : ∀ l : List (Voxel × Cell),
    sameWith (List.map greyPlace) (outputCellsRgb cfg t (l.map dimEntry)) = sameWith (List.map greyPlace) (outputCellsRgb cfg t l)
  | [] => rfl
  | (v, c) :: l => by
    have ih := outputCellsRgb_dim cfg t l
    rw [List.map_cons, dimEntry, outputCellsRgb, outputCellsRgb]
    have hp : (dimCell c).prob = c.prob := rfl
    have hc := outputCellRgb_dim cfg c
    rw [hp]
    by_cases h : c.prob ≥ t
    · rw [if_pos h, if_pos h]
      by_cases hn : c.points = []
      · have : (dimCell c).points = [] := by simp [dimCell, hn]
        rw [Outcome.check_neg (fun hh => hh this), Outcome.check_neg (fun hh => hh hn), Outcome.bind_abort, Outcome.bind_abort]
      · have : (dimCell c).points ≠ [] := by simpa [dimCell] using hn
        rw [Outcome.check_pos this, Outcome.check_pos hn]
        simp only [Outcome.bind_ok]
        revert ih
        cases outputCellsRgb cfg t (l.map dimEntry) <;> cases outputCellsRgb cfg t l <;> intro ih <;>
          simp only [sameWith, Outcome.ok.injEq, reduceCtorEq] at ih
        · simp only [sameWith, Outcome.bind_ok, Outcome.pure_eq, List.map_append, hc, ih]
        · rw [Outcome.bind_abort, Outcome.bind_abort]
        · rw [Outcome.bind_ub, Outcome.bind_ub]
    · rw [if_neg h, if_neg h]
      exact ih

/-- C143, the coloured cloud. -/
theorem C143_output_colour (cfg : MrvmCfg) (threshold : Rat) (s t : List (Voxel × Cell)) (h : s.map dimEntry = t.map dimEntry) :
    sameWith (List.map greyPlace) (outputCloudRgb cfg threshold s) = sameWith (List.map greyPlace) (outputCloudRgb cfg threshold t) := by
  unfold outputCloudRgb
  cases threshold8 threshold with
  | abort => rfl
  | ub => rfl
  | ok u =>
    simp only [Outcome.bind_ok]
    rw [← outputCellsRgb_dim cfg u s, ← outputCellsRgb_dim cfg u t, h]

/-! ### examples -/

/-- A dark and a bright scan of the same shape, which are not equal. -/
def darkScan : InnerCloud Rat := { stamp := ⟨0, 0, 1⟩, points := [⟨1, 2, 3, 5, 0⟩, ⟨2, 2, 3, 200, 1 / 2⟩] }
def brightScan : InnerCloud Rat := { stamp := ⟨0, 0, 1⟩, points := [⟨1, 2, 3, 250, 0⟩, ⟨2, 2, 3, 7, 1 / 2⟩] }

example : SameShape darkScan brightScan ∧ darkScan ≠ brightScan := by
  rw [C143_shape]
  constructor <;> decide +kernel

example (st : FState Rat) (sqrt : Rat → Rat) (draws : Nat → Rat) (io : IterOrder (Voxel × List Nat)) :
    ∀ f ∈ [stageOf (rangeFilter sqrt 1 50) st, stageOf (axisFilter 1000 (-1) 2 0) st, stageOf (randomFilter (999 / 1000) (1 / 2) draws) st,
      stageOf (groundFilter {} io) st], BlindToLight f := by
  intro f hf
  simp only [List.mem_cons, List.not_mem_nil, or_false] at hf
  rcases hf with rfl | rfl | rfl | rfl
  · exact C143_member _ (fun st out => C143_range sqrt 1 50 st out) st
  · exact C143_member _ (fun st out => C143_axis 1000 (-1) 2 0 st out) st
  · exact C143_member _ (fun st out => C143_random _ _ draws st out) st
  · exact C143_member _ (fun st out => C143_ground {} io st out) st

example : [(some darkScan.points, (⟨0, 0, 0⟩ : Vec3 Rat))].map dimScan = [(some brightScan.points, ⟨0, 0, 0⟩)].map dimScan := by decide +kernel
end Verif
