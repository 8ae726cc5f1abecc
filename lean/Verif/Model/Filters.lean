import Verif.Model.CloudIO
import Verif.Model.Geom
import Verif.Model.Buckets
import Verif.Model.Outcome
import Mathlib.Algebra.Order.Field.Rat
import Mathlib.Data.Rat.Floor
/-!
# Point cloud filters: pre_processors/*

A filter object holds the input cloud (a shared pointer; here its content, the input is not changed
while filtering) and the two index vectors.  The output cloud is a different object than the input.
`int` loop indices (clouds beyond `INT_MAX` points) and the stack space of the variable length array
in filter_range.cc:54 are not modelled.  Coordinates are elements of an ordered field, so there are
no NaNs.
-/
namespace Verif

variable {R : Type} [Field R] [LinearOrder R]

/-- processor_interface.h:62-66. -/
structure FState (R : Type) where
  input : Option (InnerCloud R) := none
  inliers : List Nat := []
  outliers : List Nat := []

/-- processor_interface.h:46-55 `SetInputCloud` (`none` = null pointer). -/
def FState.setInput (_st : FState R) (c : Option (InnerCloud R)) : FState R :=
  match c with
  | none => { input := none, inliers := [], outliers := [] }
  | some c =>
    if c.points.isEmpty then { input := none, inliers := [], outliers := [] }
    else { input := some c, inliers := [], outliers := [] }

/-- filter_interface.cc:72-78 `FilterPrepare`. -/
def filterPrepare (st : FState R) (input out : InnerCloud R) : FState R × InnerCloud R :=
  ({ st with inliers := [], outliers := [] }, { out with points := [], stamp := input.stamp })

/-- What one pass over the input produces. -/
structure Scan (R : Type) where
  inl : List Nat
  outl : List Nat
  pts : List (InnerPoint R)

/-- The loop shared by the filters (filter_range.cc:77-84, filter_axis_range.cc:68-98,
filter_bounding_box.cc:69-79, filter_random_sample.cc:66-73, filter_ground_removal2.cc:229-236):
point `i` is pushed to inliers and output or to outliers.  `keep` may carry state from one point to
the next. -/
def scanFrom {σ : Type} (keep : σ → Nat → InnerPoint R → Bool × σ) :
    σ → Nat → List (InnerPoint R) → Scan R × σ
  | s, _, [] => (⟨[], [], []⟩, s)
  | s, i, p :: ps =>
    let k := keep s i p
    let r := scanFrom keep k.2 (i + 1) ps
    if k.1 then (⟨i :: r.1.inl, r.1.outl, p :: r.1.pts⟩, r.2)
    else (⟨r.1.inl, i :: r.1.outl, r.1.pts⟩, r.2)

/-- `FilterPrepare` followed by the loop, for a filter whose decision does not carry state. -/
def runScan (keep : Nat → InnerPoint R → Bool) (st : FState R) (out : InnerCloud R) :
    FState R × InnerCloud R :=
  match st.input with
  | none => (st, out)
  | some c =>
    let (st, out) := filterPrepare st c out
    let r := (scanFrom (fun (_ : Unit) i p => (keep i p, ())) () 0 c.points).1
    ({ st with inliers := st.inliers ++ r.inl, outliers := st.outliers ++ r.outl },
     { out with points := out.points ++ r.pts })

/-- filter_range.cc:59-68.  `sqrt` is `std::sqrt`. -/
def rangeKeep (sqrt : R → R) (min max : R) (p : InnerPoint R) : Bool :=
  let range := sqrt (p.x * p.x + p.y * p.y + p.z * p.z)
  range ≥ min && range ≤ max

/-- filter_range.cc:45-88 `Range::Filter`. -/
def rangeFilter (sqrt : R → R) (min max : R) (st : FState R) (out : InnerCloud R) :
    FState R × InnerCloud R :=
  runScan (fun _ p => rangeKeep sqrt min max p) st out

/-- filter_axis_range.cc:70-90. -/
def axisKeep (min max : R) (axis : Int) (p : InnerPoint R) : Bool :=
  if axis = 0 then !(p.x < min || p.x > max)
  else if axis = 1 then !(p.y < min || p.y > max)
  else if axis = 2 then !(p.z < min || p.z > max)
  else true

/-- The early exits of filter_axis_range.cc:50-58 and filter_random_sample.cc:44-51: copy the cloud
and append all indices to the inliers. -/
def copyAll (st : FState R) (out : InnerCloud R) : FState R × InnerCloud R :=
  match st.input with
  | none => (st, out)
  | some c => ({ st with inliers := st.inliers ++ List.range c.points.length, outliers := [] }, c)

/-- filter_axis_range.cc:45-102 `AxisRange::Filter`; `limit` is `numeric_limits<float>::max()`. -/
def axisFilter (limit min max : R) (axis : Int) (st : FState R) (out : InnerCloud R) :
    FState R × InnerCloud R :=
  if min = -limit ∧ max = limit then copyAll st out
  else runScan (fun _ p => axisKeep min max axis p) st out

/-- bounding_box.cc:117-121 `BoundingBox::ContainsPoint`. -/
def boxContains (mn mx : Vec3 R) (p : InnerPoint R) : Bool :=
  p.x ≥ mn.x && p.y ≥ mn.y && p.z ≥ mn.z && p.x ≤ mx.x && p.y ≤ mx.y && p.z ≤ mx.z

/-- filter_bounding_box.cc:53-83 with the checks of bounding_box.cc:112-115. -/
def bboxFilter (mn mx : Vec3 R) (st : FState R) (out : InnerCloud R) :
    Outcome (FState R × InnerCloud R) :=
  match st.input with
  | none => .ok (st, out)
  | some _ => do
    Outcome.check (mn.x < mx.x ∧ mn.y < mx.y ∧ mn.z < mx.z)
    return runScan (fun _ p => !boxContains mn mx p) st out

/-- filter_random_sample.cc:39-77; `draws i` is the `i`-th random number of this call, `almostOne`
the constant 0.999. -/
def randomFilter (almostOne rate : R) (draws : Nat → R) (st : FState R) (out : InnerCloud R) :
    FState R × InnerCloud R :=
  if rate > almostOne then copyAll st out
  else runScan (fun i _ => draws i ≤ rate) st out

/-- filter_statistic_removal.cc:44-60 : does nothing. -/
def statisticFilter (st : FState R) (out : InnerCloud R) : FState R × InnerCloud R := (st, out)

/-- filter_ground_removal2.cc:212-238; `isOutlier i` is the flag `ClusterGround` computed. -/
def ground2Filter (isOutlier : Nat → Bool) (st : FState R) (out : InnerCloud R) :
    FState R × InnerCloud R :=
  runScan (fun i _ => !isOutlier i) st out

/-! ### ground removal by voxels -/

/-- `static_cast<int>(q)`: truncation towards zero (values beyond `int` are undefined; not
modelled). -/
def truncInt (q : Rat) : Int := if 0 ≤ q then ⌊q⌋ else ⌈q⌉

structure GroundCfg where
  minPoints : Int := 10
  leaf : Rat := 8 / 10
  height : Rat := 15 / 100

/-- filter_ground_removal.cc:60-62. -/
def groundKey (cfg : GroundCfg) (p : InnerPoint Rat) : Voxel :=
  ⟨truncInt (p.x / cfg.leaf), truncInt (p.y / cfg.leaf), truncInt (p.z / cfg.leaf)⟩

/-- filter_ground_removal.cc:82-92 : maximum and minimum of the z values, started at ∓1e9. -/
def zSpread (zs : List Rat) : Rat × Rat :=
  zs.foldl (fun m z => (if z > m.1 then z else m.1, if z < m.2 then z else m.2)) (-1000000000, 1000000000)

/-- filter_ground_removal.cc:80-100 : is the voxel ground? -/
def voxelIsGround (cfg : GroundCfg) (pts : List (InnerPoint Rat)) (v : Voxel) (idx : List Nat) : Bool :=
  if v.z ≤ 0 then
    let m := zSpread ((idx.filterMap (fun i => pts[i]?)).map InnerPoint.z)
    let delta := m.1 - m.2
    decide (delta ≥ 0) && decide (delta ≤ cfg.height)
  else false

/-- Index insertion into the voxel table: filter_ground_removal.cc:57-64. -/
def groundTable (cfg : GroundCfg) (c : InnerCloud Rat) : List (Voxel × List Nat) :=
  c.points.zipIdx.foldl (fun t q => bucketPush (groundKey cfg q.1) q.2 t) []

/-- filter_ground_removal.cc:74-108 : one pass over the voxels in iteration order. -/
def groundLoop (cfg : GroundCfg) (c : InnerCloud Rat) :
    List (Voxel × List Nat) → Scan Rat
  | [] => ⟨[], [], []⟩
  | (v, idx) :: rest =>
    let r := groundLoop cfg c rest
    if (idx.length : Int) < cfg.minPoints then r
    else if voxelIsGround cfg c.points v idx then ⟨r.inl, idx ++ r.outl, r.pts⟩
    else ⟨idx ++ r.inl, r.outl, idx.filterMap (fun i => c.points[i]?) ++ r.pts⟩

/-- filter_ground_removal.cc:67-111 `GroundRemoval::Filter`. -/
def groundFilter (cfg : GroundCfg) (io : IterOrder (Voxel × List Nat)) (st : FState Rat)
    (out : InnerCloud Rat) : FState Rat × InnerCloud Rat :=
  match st.input with
  | none => (st, out)
  | some c =>
    let (st, out) := filterPrepare st c out
    let r := groundLoop cfg c (io.order (groundTable cfg c))
    ({ st with inliers := (st.inliers ++ r.inl).mergeSort (fun a b => decide (a ≤ b))
               outliers := (st.outliers ++ r.outl).mergeSort (fun a b => decide (a ≤ b)) },
     { out with points := out.points ++ r.pts })

/-! ### range image -/

/-- The floating point results filter_range_image.cc:102-121 computes for a point: distance in the
plane, row, column, and range.  `rangePos`: the range is at least the distance in the plane. -/
structure ImageGeom (R : Type) [LinearOrder R] where
  xyDist : InnerPoint R → R
  row : InnerPoint R → Int
  col : InnerPoint R → Int
  range : InnerPoint R → R
  rangePos : ∀ p, xyDist p ≤ range p

/-- `matrix_image_` (zero initially) and the part of `map_image_` that matters: which cloud index
each pixel got. -/
structure ImageState (R : Type) where
  cell : Int × Int → R
  index : Int × Int → Option Nat

/-- filter_range_image.cc:76-79. -/
def ImageState.blank : ImageState R := ⟨fun _ => 0, fun _ => none⟩

/-- filter_range_image.cc:106-136 : one point; `near` is 0.01, `tiny` is 1e-6. -/
def imageKeep (near tiny : R) (G : ImageGeom R) (rows cols : Int) (s : ImageState R) (i : Nat)
    (p : InnerPoint R) : Bool × ImageState R :=
  if G.xyDist p < near then (false, s)
  else if G.row p < 0 ∨ G.row p ≥ rows then (false, s)
  else
    let col := if G.col p ≥ cols then G.col p - cols else G.col p
    if col < 0 ∨ col ≥ cols then (false, s)
    else if s.cell (G.row p, col) < tiny then
      (true, ⟨fun q => if q = (G.row p, col) then G.range p else s.cell q,
              fun q => if q = (G.row p, col) then some i else s.index q⟩)
    else (false, s)

/-- The range image filter object. -/
structure ImageFilter (R : Type) where
  base : FState R := {}
  image : ImageState R

/-- filter_range_image.cc:66-80 `SetInputCloud` (does not clear the index lists). -/
def ImageFilter.setInput (rows cols : Int) (st : ImageFilter R) (c : Option (InnerCloud R)) :
    ImageFilter R :=
  match c with
  | none => { st with base := { st.base with input := none } }
  | some c =>
    if c.points.isEmpty then { st with base := { st.base with input := none } }
    else if rows ≤ 0 ∨ cols ≤ 0 then st
    else { base := { st.base with input := some c }, image := ImageState.blank }

/-- filter_range_image.cc:138-140 : the points at the given indices; out of range is undefined. -/
def pickPoints (pts : List (InnerPoint R)) : List Nat → Outcome (List (InnerPoint R))
  | [] => .ok []
  | i :: is =>
    match pts[i]? with
    | none => .ub
    | some p => do
      let ps ← pickPoints pts is
      return p :: ps

/-- filter_range_image.cc:82-141 `Filter`; `FilterPrepare` empties the lists and the output
and copies the stamp; the output is filled from the inlier indices at the end (138-140). -/
def ImageFilter.filter (near tiny : R) (G : ImageGeom R) (rows cols : Int) (st : ImageFilter R)
    (out : InnerCloud R) : Outcome (ImageFilter R × InnerCloud R) :=
  match st.base.input with
  | none => .ok (st, out)
  | some c =>
    let r := scanFrom (imageKeep near tiny G rows cols) st.image 0 c.points
    do
      let pts ← pickPoints c.points r.1.inl
      return ({ base := { input := some c, inliers := r.1.inl, outliers := r.1.outl }, image := r.2 },
              { stamp := c.stamp, points := pts })

/-! ### voxel grid -/

/-- `std::lround`: nearest integer, halves away from zero. -/
def lround (q : Rat) : Int := if 0 ≤ q then ⌊q + 1 / 2⌋ else ⌈q - 1 / 2⌉

/-- filter_voxel_grid.cc:47-49 (conversion of `long` to `int` not modelled). -/
def gridKey (size : Rat) (p : InnerPoint Rat) : Voxel :=
  ⟨lround (p.x / size), lround (p.y / size), lround (p.z / size)⟩

/-- filter_voxel_grid.cc:53-73 `get_average_point`; the default point has factor 0. -/
def averagePoint (ps : List (InnerPoint Rat)) : Outcome (InnerPoint Rat) := do
  Outcome.check (ps ≠ [])
  let s := ps.foldl (fun (s : Rat × Rat × Rat × Rat) p =>
    (s.1 + p.x, s.2.1 + p.y, s.2.2.1 + p.z, s.2.2.2 + p.intensity)) (0, 0, 0, 0)
  let n : Rat := ps.length
  return { x := s.1 / n, y := s.2.1 / n, z := s.2.2.1 / n, intensity := s.2.2.2 / n, factor := 0 }

/-- filter_voxel_grid.cc:75-78. -/
def averageAll : List (Voxel × List (InnerPoint Rat)) → Outcome (List (InnerPoint Rat))
  | [] => .ok []
  | (_, ps) :: rest => do
    let a ← averagePoint ps
    let as ← averageAll rest
    return a :: as

/-- filter_voxel_grid.cc:37-79 `VoxelGrid::Filter`. -/
def voxelGridFilter (size : Rat) (io : IterOrder (Voxel × List (InnerPoint Rat)))
    (st : FState Rat) (out : InnerCloud Rat) : Outcome (FState Rat × InnerCloud Rat) :=
  match st.input with
  | none => .ok (st, out)
  | some c => do
    let (st, out) := filterPrepare st c out
    let pts ← averageAll (io.order (bucketAll (gridKey size) c.points))
    return (st, { out with points := out.points ++ pts })

/-! ### chains -/

/-- One member of a chain, seen from the chain: `SetInputCloud(input)` then `Filter(output)`, as a
function of the input cloud and the previous content of the output cloud. -/
abbrev Stage (R : Type) := InnerCloud R → InnerCloud R → InnerCloud R

/-- A filter object used as chain member; `st` is whatever state earlier uses left. -/
def stageOf (f : FState R → InnerCloud R → FState R × InnerCloud R) (st : FState R) : Stage R :=
  fun c out => (f (st.setInput (some c)) out).2

/-- filter_factory.cc:99-104 : `m1`, `m2` are the two intermediate clouds. -/
def chainLoop : List (Stage R) → InnerCloud R → InnerCloud R → InnerCloud R
  | [], _, m2 => m2
  | s :: ss, m1, m2 => chainLoop ss (s m1 m2) (s m1 m2)

/-- `new InnerCloudType`. -/
def freshCloud : InnerCloud R := { stamp := ⟨0, 0, 1⟩, points := [] }

/-- filter_factory.cc:83-106 `Factory::Filter` on a chain of filters. -/
def factoryFilter (stages : List (Stage R)) (st : FState R) (out : InnerCloud R) :
    FState R × InnerCloud R :=
  match st.input with
  | none => (st, out)
  | some c =>
    let (st, _) := filterPrepare st c out
    match stages with
    | [] => (st, c)
    | _ => (st, chainLoop stages c freshCloud)

/-- filter_factory.cc:63-81 : the names in the configuration become filters, in order; unknown ones
are skipped. -/
def buildChain {F : Type} (supported : String → Option F) : List String → List F
  | [] => []
  | n :: ns =>
    match supported n with
    | none => buildChain supported ns
    | some f => f :: buildChain supported ns

end Verif
