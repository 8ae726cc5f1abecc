import Verif.Spec.MapOrigin
import Mathlib.Tactic.Linarith
import Mathlib.Tactic.Ring
import Mathlib.Tactic.FieldSimp
/-! C140: the static map is the same wherever the origin is. -/
namespace Verif
open Spec

theorem voxelOf_by {res : Rat} (hr : res ≠ 0) (k : Voxel) (p : Vec3 Rat) :
    voxelOf (placeBy (wholeVoxels res k) p) res = voxelBy k (voxelOf p res) := by
  have h : ∀ (a : Rat) (n : Int), ((a + n * res) / res).floor = (a / res).floor + n := by
    intro a n
    rw [add_div, mul_div_cancel_right₀ _ hr]
    exact Int.floor_add_intCast (a / res) n
  unfold voxelOf voxelBy placeBy wholeVoxels
  simp only [h]

theorem bresAxis_by (d dm s : Int) (a : Int × Int) (n : Int) :
    bresAxis d dm s (a.1, a.2 + n) = ((bresAxis d dm s a).1, (bresAxis d dm s a).2 + n) := by
  unfold bresAxis
  dsimp only
  by_cases h : a.1 - d < 0
  · rw [if_pos h, if_pos h]
    simp only [Prod.mk.injEq, true_and]
    ring
  · rw [if_neg h, if_neg h]

theorem bresLoop_by (d : Voxel) (dm : Int) (s k : Voxel) : ∀ (i : Nat) (ax ay az : Int × Int),
    bresLoop d dm s i (ax.1, ax.2 + k.x) (ay.1, ay.2 + k.y) (az.1, az.2 + k.z) =
      ((bresLoop d dm s i ax ay az).1.map (voxelBy k), voxelBy k (bresLoop d dm s i ax ay az).2)
  | 0, ax, ay, az => rfl
  | i + 1, ax, ay, az => by
    rw [bresLoop, bresLoop, bresAxis_by, bresAxis_by, bresAxis_by, bresLoop_by d dm s k i]
    rfl

theorem check_by {p q : Prop} [Decidable p] [Decidable q] (h : p ↔ q) : Outcome.check p = Outcome.check q := by
  by_cases hp : p
  · rw [Outcome.check_pos hp, Outcome.check_pos (h.1 hp)]
  · rw [Outcome.check_neg hp, Outcome.check_neg (fun hq => hp (h.2 hq))]

theorem bresenham_by (k v0 v1 : Voxel) :
    bresenham (voxelBy k v0) (voxelBy k v1) = sameWith (List.map (voxelBy k)) (bresenham v0 v1) := by
  unfold bresenham
  have ex : (voxelBy k v1).x - (voxelBy k v0).x = v1.x - v0.x := by simp only [voxelBy]; ring
  have ey : (voxelBy k v1).y - (voxelBy k v0).y = v1.y - v0.y := by simp only [voxelBy]; ring
  have ez : (voxelBy k v1).z - (voxelBy k v0).z = v1.z - v0.z := by simp only [voxelBy]; ring
  have lx : ((voxelBy k v0).x < (voxelBy k v1).x) = (v0.x < v1.x) := by simp [voxelBy]
  have ly : ((voxelBy k v0).y < (voxelBy k v1).y) = (v0.y < v1.y) := by simp [voxelBy]
  have lz : ((voxelBy k v0).z < (voxelBy k v1).z) = (v0.z < v1.z) := by simp [voxelBy]
  dsimp only
  rw [ex, ey, ez]
  simp only [lx, ly, lz]
  have e : ∀ (d : Voxel) (dm : Int) (s : Voxel) (i : Nat) (h : Int),
      bresLoop d dm s i (h, (voxelBy k v0).x) (h, (voxelBy k v0).y) (h, (voxelBy k v0).z) =
        ((bresLoop d dm s i (h, v0.x) (h, v0.y) (h, v0.z)).1.map (voxelBy k),
          voxelBy k (bresLoop d dm s i (h, v0.x) (h, v0.y) (h, v0.z)).2) :=
    fun d dm s i h => bresLoop_by d dm s k i (h, v0.x) (h, v0.y) (h, v0.z)
  rw [e]
  generalize bresLoop _ _ _ _ _ _ _ = r
  obtain ⟨l, w⟩ := r
  dsimp only
  rw [check_by (show (voxelBy k w).x = (voxelBy k v1).x ↔ w.x = v1.x by simp [voxelBy]),
    check_by (show (voxelBy k w).y = (voxelBy k v1).y ↔ w.y = v1.y by simp [voxelBy]),
    check_by (show (voxelBy k w).z = (voxelBy k v1).z ↔ w.z = v1.z by simp [voxelBy])]
  unfold Outcome.check
  by_cases hx : w.x = v1.x
  · by_cases hy : w.y = v1.y
    · by_cases hz : w.z = v1.z
      · simp [hx, hy, hz, sameWith]
      · simp [hx, hy, hz, sameWith]
    · simp [hx, hy, sameWith]
  · simp [hx, sameWith]

/-- C140, a ray: its voxels are those of the ray elsewhere. -/
theorem C140_ray {res : Rat} (hr : res ≠ 0) (k : Voxel) (a b : Vec3 Rat) :
    voxelCastingBresenham (placeBy (wholeVoxels res k) a) (placeBy (wholeVoxels res k) b) res =
      sameWith (List.map (voxelBy k)) (voxelCastingBresenham a b res) := by
  unfold voxelCastingBresenham
  rw [voxelOf_by hr, voxelOf_by hr, bresenham_by]

theorem back_by (k v : Voxel) : voxelBack k (voxelBy k v) = v := by
  unfold voxelBack voxelBy
  ext <;> simp

theorem back_eq (k v w : Voxel) : voxelBack k w = v ↔ w = voxelBy k v := by
  unfold voxelBack voxelBy
  constructor
  · rintro rfl
    ext <;> simp
  · rintro rfl
    ext <;> simp

theorem mapBy_at (res : Rat) (k : Voxel) (m : VMap) (v : Voxel) :
    mapBy res k m (voxelBy k v) = (m v).map (cellBy (wholeVoxels res k)) := by
  unfold mapBy
  rw [back_by]

theorem mapBy_set (res : Rat) (k : Voxel) (m : VMap) (v : Voxel) (c : Cell) :
    mapBy res k (m.set v c) = (mapBy res k m).set (voxelBy k v) (cellBy (wholeVoxels res k) c) := by
  funext w
  unfold mapBy VMap.set
  by_cases h : w = voxelBy k v
  · rw [if_pos h, if_pos ((back_eq k v w).2 h)]
    rfl
  · rw [if_neg h, if_neg (fun hb => h ((back_eq k v w).1 hb))]

theorem getD_by (d : Vec3 Rat) (o : Option Cell) : (o.map (cellBy d)).getD {} = cellBy d (o.getD {}) := by
  cases o <;> rfl

theorem missAt_by (cfg : MrvmCfg) (res : Rat) (k : Voxel) (m : VMap) (v : Voxel) :
    missAt cfg (mapBy res k m) (voxelBy k v) = mapBy res k (missAt cfg m v) := by
  unfold missAt
  rw [mapBy_at]
  cases h : m v with
  | none => rfl
  | some c =>
    simp only [Option.map_some]
    by_cases hu : c.needUpdate = true
    · rw [if_pos (show (cellBy (wholeVoxels res k) c).needUpdate = true from hu), if_pos hu, mapBy_set]
      rfl
    · rw [if_neg (show ¬(cellBy (wholeVoxels res k) c).needUpdate = true from hu), if_neg hu]

theorem missAll_by (cfg : MrvmCfg) (res : Rat) (k : Voxel) : ∀ (l : List Voxel) (m : VMap),
    (l.map (voxelBy k)).foldl (missAt cfg) (mapBy res k m) = mapBy res k (l.foldl (missAt cfg) m)
  | [], _ => rfl
  | v :: l, m => by
    rw [List.map_cons, List.foldl_cons, List.foldl_cons, missAt_by, missAll_by cfg res k l]

theorem hitCell_by (cfg : MrvmCfg) (d : Vec3 Rat) (p : InnerPoint Rat) (c : Cell) :
    hitCell cfg (pointBy d p) (cellBy d c) = cellBy d (hitCell cfg p c) := by
  unfold hitCell cellBy
  simp only [List.length_map, Cell.mk.injEq]
  refine ⟨trivial, trivial, rfl, ?_⟩
  by_cases h : (c.points.length : Int) < cfg.maxPoints
  · rw [if_pos h, if_pos h, List.map_append]
    rfl
  · rw [if_neg h, if_neg h]

theorem insertPoint_by (cfg : MrvmCfg) (hr : cfg.resolution ≠ 0) (k : Voxel) (o : Vec3 Rat) (m : VMap) (es : List Voxel) (p : InnerPoint Rat) :
    insertPoint cfg (placeBy (wholeVoxels cfg.resolution k) o) (mapBy cfg.resolution k m, es.map (voxelBy k)) (pointBy (wholeVoxels cfg.resolution k) p) =
      sameWith (fun r => (mapBy cfg.resolution k r.1, r.2.map (voxelBy k))) (insertPoint cfg o (m, es) p) := by
  unfold insertPoint
  have hc := C140_ray hr k o ⟨p.x, p.y, p.z⟩
  have hp : placeBy (wholeVoxels cfg.resolution k) (⟨p.x, p.y, p.z⟩ : Vec3 Rat) = ⟨(pointBy (wholeVoxels cfg.resolution k) p).x,
      (pointBy (wholeVoxels cfg.resolution k) p).y, (pointBy (wholeVoxels cfg.resolution k) p).z⟩ := rfl
  rw [hp] at hc
  rw [hc]
  cases voxelCastingBresenham o ⟨p.x, p.y, p.z⟩ cfg.resolution with
  | abort => rfl
  | ub => rfl
  | ok path =>
    simp only [sameWith, Outcome.bind_ok, List.getLast?_map]
    cases path.getLast? with
    | none => rfl
    | some e =>
      simp only [Option.map_some, Outcome.pure_eq, sameWith]
      rw [mapBy_at, getD_by, hitCell_by, ← mapBy_set, ← List.map_dropLast, missAll_by, List.map_append]
      rfl

theorem insertPoints_by (cfg : MrvmCfg) (hr : cfg.resolution ≠ 0) (k : Voxel) (o : Vec3 Rat) : ∀ (ps : List (InnerPoint Rat)) (m : VMap) (es : List Voxel),
    insertPoints cfg (placeBy (wholeVoxels cfg.resolution k) o) (mapBy cfg.resolution k m, es.map (voxelBy k))
      (ps.map (pointBy (wholeVoxels cfg.resolution k))) =
      sameWith (fun r => (mapBy cfg.resolution k r.1, r.2.map (voxelBy k))) (insertPoints cfg o (m, es) ps)
  | [], _, _ => rfl
  | p :: ps, m, es => by
    rw [List.map_cons, insertPoints, insertPoints, insertPoint_by cfg hr]
    cases insertPoint cfg o (m, es) p with
    | abort => rfl
    | ub => rfl
    | ok r =>
      simp only [sameWith, Outcome.bind_ok]
      exact insertPoints_by cfg hr k o ps r.1 r.2

theorem releaseAll_by (res : Rat) (k : Voxel) : ∀ (es : List Voxel) (m : VMap),
    releaseAll (mapBy res k m) (es.map (voxelBy k)) = mapBy res k (releaseAll m es)
  | [], _ => rfl
  | e :: es, m => by
    rw [List.map_cons, releaseAll, releaseAll, mapBy_at, getD_by, ← releaseAll_by res k es, mapBy_set]
    rfl

theorem insertCloud_by (cfg : MrvmCfg) (hr : cfg.resolution ≠ 0) (k : Voxel) (m : VMap) (c : Option (List (InnerPoint Rat)) × Vec3 Rat) :
    insertCloud cfg (mapBy cfg.resolution k m) (cloudBy (wholeVoxels cfg.resolution k) c).1 (cloudBy (wholeVoxels cfg.resolution k) c).2 =
      sameWith (mapBy cfg.resolution k) (insertCloud cfg m c.1 c.2) := by
  obtain ⟨c, o⟩ := c
  unfold insertCloud cloudBy
  cases c with
  | none => rfl
  | some ps =>
    simp only [Option.map_some, List.isEmpty_map]
    by_cases h : ps.isEmpty = true
    · rw [if_pos h, if_pos h]
      rfl
    · rw [if_neg h, if_neg h]
      have ho : ({ placeBy (wholeVoxels cfg.resolution k) o with z := (placeBy (wholeVoxels cfg.resolution k) o).z + cfg.zOffset } : Vec3 Rat) =
          placeBy (wholeVoxels cfg.resolution k) { o with z := o.z + cfg.zOffset } := by
        unfold placeBy
        simp only [Vec3.mk.injEq, true_and]
        ring
      rw [ho]
      have hi := insertPoints_by cfg hr k { o with z := o.z + cfg.zOffset } ps m []
      simp only [List.map_nil] at hi
      rw [hi]
      cases insertPoints cfg { o with z := o.z + cfg.zOffset } (m, []) ps with
      | abort => rfl
      | ub => rfl
      | ok r =>
        simp only [sameWith, Outcome.bind_ok, Outcome.pure_eq]
        rw [releaseAll_by]

/-- C140, the map: if all clouds and the places they were taken from are moved by whole voxels, the map is the same map, moved: the same
voxels are stored with the same probabilities, intensities and points. -/
theorem C140_map_partial (cfg : MrvmCfg) (hr : cfg.resolution ≠ 0) (k : Voxel) : ∀ (cs : List (Option (List (InnerPoint Rat)) × Vec3 Rat)) (m : VMap),
    insertClouds cfg (mapBy cfg.resolution k m) (cs.map (cloudBy (wholeVoxels cfg.resolution k))) =
      sameWith (mapBy cfg.resolution k) (insertClouds cfg m cs)
  | [], _ => rfl
  | c :: cs, m => by
    rw [List.map_cons, insertClouds, insertClouds, insertCloud_by cfg hr]
    cases insertCloud cfg m c.1 c.2 with
    | abort => rfl
    | ub => rfl
    | ok r =>
      simp only [sameWith, Outcome.bind_ok]
      exact C140_map_partial cfg hr k cs r

/-- C140, from the start: nothing is stored at first, wherever the origin is. -/
theorem C140_fresh_partial (cfg : MrvmCfg) (hr : cfg.resolution ≠ 0) (k : Voxel) (cs : List (Option (List (InnerPoint Rat)) × Vec3 Rat)) :
    insertClouds cfg (fun _ => none) (cs.map (cloudBy (wholeVoxels cfg.resolution k))) =
      sameWith (mapBy cfg.resolution k) (insertClouds cfg (fun _ => none) cs) :=
  C140_map_partial cfg hr k cs (fun _ => none)

theorem sum_by (f : InnerPoint Rat → Rat) (g : InnerPoint Rat → InnerPoint Rat) (d : Rat) (h : ∀ p, f (g p) = f p + d) :
    ∀ l : List (InnerPoint Rat), ((l.map g).map f).sum = (l.map f).sum + l.length * d
  | [] => by simp
  | p :: l => by
    rw [List.map_cons, List.map_cons, List.sum_cons, sum_by f g d h l, h, List.map_cons, List.sum_cons, List.length_cons]
    push_cast
    ring

theorem mean_by (f : InnerPoint Rat → Rat) (g : InnerPoint Rat → InnerPoint Rat) (d : Rat) (h : ∀ p, f (g p) = f p + d) (l : List (InnerPoint Rat))
    (hl : l ≠ []) : ((l.map g).map f).sum / (l.length : Rat) = (l.map f).sum / (l.length : Rat) + d := by
  have : (l.length : Rat) ≠ 0 := by
    have := List.length_pos_iff.2 hl
    positivity
  rw [sum_by f g d h l]
  field_simp

theorem outputCell_by (cfg : MrvmCfg) (d : Vec3 Rat) (c : Cell) (hc : c.points ≠ []) :
    outputCell cfg (cellBy d c) = ((outputCell cfg c).1.map (pointBy d), cellBy d (outputCell cfg c).2) := by
  unfold outputCell
  by_cases h : cfg.outputAverage = true
  · rw [if_pos h, if_pos h]
    simp only [cellBy, List.length_map, List.map_cons, List.map_nil]
    rw [mean_by InnerPoint.x (pointBy d) d.x (fun _ => rfl) c.points hc, mean_by InnerPoint.y (pointBy d) d.y (fun _ => rfl) c.points hc,
      mean_by InnerPoint.z (pointBy d) d.z (fun _ => rfl) c.points hc]
    rfl
  · rw [if_neg h, if_neg h]
    by_cases hm : cfg.useMaxIntensity = true
    · rw [if_pos hm, if_pos hm]
      simp only [cellBy, List.map_map]
      rfl
    · rw [if_neg hm, if_neg hm]
      rfl

theorem outputCells_by (cfg : MrvmCfg) (res : Rat) (k : Voxel) (t : Nat) : ∀ l : List (Voxel × Cell),
    outputCells cfg t (l.map (entryBy res k)) =
      sameWith (fun r => (r.1.map (pointBy (wholeVoxels res k)), r.2.map (entryBy res k))) (outputCells cfg t l)
  | [] => rfl
  | (v, c) :: l => by
    rw [List.map_cons, entryBy, outputCells, outputCells, outputCells_by cfg res k t l]
    have hp : (cellBy (wholeVoxels res k) c).prob = c.prob := rfl
    rw [hp]
    by_cases h : c.prob ≥ t
    · rw [if_pos h, if_pos h]
      by_cases hn : c.points = []
      · have : (cellBy (wholeVoxels res k) c).points = [] := by simp [cellBy, hn]
        rw [Outcome.check_neg (fun hh => hh this), Outcome.check_neg (fun hh => hh hn)]
        rfl
      · have : (cellBy (wholeVoxels res k) c).points ≠ [] := by simpa [cellBy] using hn
        rw [Outcome.check_pos this, Outcome.check_pos hn]
        cases outputCells cfg t l with
        | abort => rfl
        | ub => rfl
        | ok r =>
          simp only [sameWith, Outcome.bind_ok, Outcome.pure_eq]
          rw [outputCell_by cfg _ c hn, List.map_append, List.map_cons]
          rfl
    · rw [if_neg h, if_neg h]
      cases outputCells cfg t l with
      | abort => rfl
      | ub => rfl
      | ok r => rfl

/-- C140, the cloud that is written: every point is moved by the same length. -/
theorem C140_output (cfg : MrvmCfg) (res : Rat) (k : Voxel) (threshold : Rat) (table : List (Voxel × Cell)) :
    outputCloud cfg threshold (table.map (entryBy res k)) =
      sameWith (fun r => (r.1.map (pointBy (wholeVoxels res k)), r.2.map (entryBy res k))) (outputCloud cfg threshold table) := by
  unfold outputCloud
  cases threshold8 threshold with
  | abort => rfl
  | ub => rfl
  | ok t => exact outputCells_by cfg res k t table

theorem outputCellsRgb_by (cfg : MrvmCfg) (res : Rat) (k : Voxel) (t : Nat) : ∀ l : List (Voxel × Cell),
    outputCellsRgb cfg t (l.map (entryBy res k)) = sameWith (List.map (greyBy (wholeVoxels res k))) (outputCellsRgb cfg t l)
  | [] => rfl
  | (v, c) :: l => by
    rw [List.map_cons, entryBy, outputCellsRgb, outputCellsRgb, outputCellsRgb_by cfg res k t l]
    have hp : (cellBy (wholeVoxels res k) c).prob = c.prob := rfl
    rw [hp]
    by_cases h : c.prob ≥ t
    · rw [if_pos h, if_pos h]
      by_cases hn : c.points = []
      · have : (cellBy (wholeVoxels res k) c).points = [] := by simp [cellBy, hn]
        rw [Outcome.check_neg (fun hh => hh this), Outcome.check_neg (fun hh => hh hn)]
        rfl
      · have : (cellBy (wholeVoxels res k) c).points ≠ [] := by simpa [cellBy] using hn
        rw [Outcome.check_pos this, Outcome.check_pos hn]
        cases outputCellsRgb cfg t l with
        | abort => rfl
        | ub => rfl
        | ok r =>
          simp only [sameWith, Outcome.bind_ok, Outcome.pure_eq, List.map_append]
          congr 2
          unfold outputCellRgb
          by_cases ha : cfg.outputAverage = true
          · rw [if_pos ha, if_pos ha]
            simp only [cellBy, List.length_map, List.map_cons, List.map_nil]
            rw [mean_by InnerPoint.x (pointBy _) (wholeVoxels res k).x (fun _ => rfl) c.points hn,
              mean_by InnerPoint.y (pointBy _) (wholeVoxels res k).y (fun _ => rfl) c.points hn,
              mean_by InnerPoint.z (pointBy _) (wholeVoxels res k).z (fun _ => rfl) c.points hn]
            rfl
          · rw [if_neg ha, if_neg ha]
            simp only [cellBy, List.map_map]
            rfl
    · rw [if_neg h, if_neg h]

/-- C140, the coloured cloud. -/
theorem C140_output_colour (cfg : MrvmCfg) (res : Rat) (k : Voxel) (threshold : Rat) (table : List (Voxel × Cell)) :
    outputCloudRgb cfg threshold (table.map (entryBy res k)) =
      sameWith (List.map (greyBy (wholeVoxels res k))) (outputCloudRgb cfg threshold table) := by
  unfold outputCloudRgb
  cases threshold8 threshold with
  | abort => rfl
  | ub => rfl
  | ok t => exact outputCellsRgb_by cfg res k t table

/-! ### examples -/

def originCfg : MrvmCfg := { maxPoints := 5, hit := 7 / 10, miss := 4 / 10, resolution := 1, zOffset := 0 }

/-- Two points that share a voxel. -/
def twoPoints : List (InnerPoint Rat) := [⟨1 / 10, 0, 0, 0, 0⟩, ⟨6 / 10, 0, 0, 0, 0⟩]

/-- How many points a voxel holds. -/
def pointsAt (o : Outcome VMap) (v : Voxel) : Nat :=
  match o with
  | .ok m => ((m v).map fun c => c.points.length).getD 0
  | _ => 0

/-- C140 is false for a shift by half a voxel: two points that shared a voxel, wherever one looks, no longer do. -/
theorem C140_half_fails : ∃ (cfg : MrvmCfg) (d : Vec3 Rat) (cs : List (Option (List (InnerPoint Rat)) × Vec3 Rat)),
    cfg.resolution ≠ 0 ∧ pointsAt (insertClouds cfg (fun _ => none) cs) ⟨0, 0, 0⟩ = 2 ∧
      pointsAt (insertClouds cfg (fun _ => none) (cs.map (cloudBy d))) ⟨0, 0, 0⟩ = 1 ∧
      pointsAt (insertClouds cfg (fun _ => none) (cs.map (cloudBy d))) ⟨1, 0, 0⟩ = 1 :=
  ⟨originCfg, ⟨1 / 2, 0, 0⟩, [(some twoPoints, ⟨0, 0, 0⟩)], by decide +kernel, by decide +kernel, by decide +kernel, by decide +kernel⟩

example : pointsAt (insertClouds originCfg (fun _ => none) ([(some twoPoints, ⟨-3, 0, 0⟩)].map (cloudBy (wholeVoxels 1 ⟨40, -7, 2⟩)))) ⟨40, -7, 2⟩ = 2 := by
  decide +kernel
end Verif
