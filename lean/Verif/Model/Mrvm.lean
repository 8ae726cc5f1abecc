import Verif.Model.Filters
import Verif.Model.VoxelCasting
import Verif.Model.Floats
/-!
builder/multi_resolution_voxel_map.{h,cc} : the probabilistic voxel map behind the static map.

Simplifications: coordinates, intensities and probabilities between the table look-ups are exact
rationals; log-odds are added and converted back exactly (`bayes`, see `bayes_eq_odds` in
Proofs/Mrvm for the connection with `log`/`exp`).  This file has the loop run by one thread, in
order; `Model/MrvmParallel` has the interleavings of the OpenMP loop.
-/
namespace Verif

/-- multi_resolution_voxel_map.h:112-119 `HighResolutionVoxel` (defaults at 113-114). -/
structure Cell where
  prob : Nat := 128
  needUpdate : Bool := true
  maxIntensity : Int := 0
  points : List (InnerPoint Rat) := []
  deriving DecidableEq

/-- The settings used by insertion and output (multi_resolution_voxel_map.h:55-66). -/
structure MrvmCfg where
  maxPoints : Int
  hit : Rat
  miss : Rat
  resolution : Rat
  zOffset : Rat
  outputAverage : Bool := false
  useMaxIntensity : Bool := true

/-- common/math.h:66-75 `Clamp`. -/
def clampRat (v lo hi : Rat) : Rat := if v > hi then hi else if v < lo then lo else v

/-- multi_resolution_voxel_map.cc:42-48 `Initialise`. -/
def mrvmInit (s : MrvmCfg) : Outcome MrvmCfg := do
  Outcome.check (s.maxPoints > 0)
  return { s with hit := clampRat s.hit (501 / 1000) (9 / 10), miss := clampRat s.miss (1 / 10) (499 / 1000) }

/-- `OddToProbability(ProbabilityToOdd(p) + ProbabilityToOdd(q))` (multi_resolution_voxel_map.h:126-132,
.cc:66-69) in exact arithmetic. -/
def bayes (p q : Rat) : Rat := p * q / (p * q + (1 - p) * (1 - q))

/-- multi_resolution_voxel_map.cc:66-70, 98, 114 : one update of a table index; `kTableSize` is 256. -/
def updateProb (q : Rat) (former : Nat) : Nat :=
  (⌊clampRat (bayes (former / 256) q) (1 / 10) (9 / 10) * 256⌋).toNat

/-- multi_resolution_voxel_map.cc:87-102 : the end voxel of a ray. -/
def hitCell (cfg : MrvmCfg) (p : InnerPoint Rat) (c : Cell) : Cell where
  needUpdate := false
  maxIntensity := if truncInt p.intensity > c.maxIntensity then truncInt p.intensity else c.maxIntensity
  prob := updateProb cfg.hit c.prob
  points := if (c.points.length : Int) < cfg.maxPoints then c.points ++ [p] else c.points

/-- The map: `none` is a voxel that is not stored. -/
abbrev VMap := Voxel → Option Cell

def VMap.set (m : VMap) (v : Voxel) (c : Cell) : VMap := fun w => if w = v then some c else m w

/-- multi_resolution_voxel_map.cc:107-115 : a voxel on the way. -/
def missAt (cfg : MrvmCfg) (m : VMap) (v : Voxel) : VMap :=
  match m v with
  | none => m
  | some c => if c.needUpdate then m.set v { c with prob := updateProb cfg.miss c.prob } else m

/-- multi_resolution_voxel_map.cc:79-117 : one point; the second component is `end_voxels`
(a set, as a list).  `FATAL_CHECK_POINT` (infinite or NaN coordinates) never fires on rationals. -/
def insertPoint (cfg : MrvmCfg) (origin : Vec3 Rat) (s : VMap × List Voxel) (p : InnerPoint Rat) :
    Outcome (VMap × List Voxel) := do
  let path ← voxelCastingBresenham origin ⟨p.x, p.y, p.z⟩ cfg.resolution
  match path.getLast? with
  | none => return s
  | some e =>
    let m := s.1.set e (hitCell cfg p ((s.1 e).getD {}))
    return (path.dropLast.foldl (missAt cfg) m, s.2 ++ [e])

/-- multi_resolution_voxel_map.cc:78-118. -/
def insertPoints (cfg : MrvmCfg) (origin : Vec3 Rat) :
    VMap × List Voxel → List (InnerPoint Rat) → Outcome (VMap × List Voxel)
  | s, [] => .ok s
  | s, p :: ps => do
    let s ← insertPoint cfg origin s p
    insertPoints cfg origin s ps

/-- multi_resolution_voxel_map.cc:120-122 : `operator[]` creates a missing voxel. -/
def releaseAll (m : VMap) : List Voxel → VMap
  | [] => m
  | e :: es => releaseAll (m.set e { (m e).getD {} with needUpdate := true }) es

/-- multi_resolution_voxel_map.cc:54-123 `InsertPointCloud` (`none`: null pointer). -/
def insertCloud (cfg : MrvmCfg) (m : VMap) (cloud : Option (List (InnerPoint Rat))) (origin : Vec3 Rat) :
    Outcome VMap :=
  match cloud with
  | none => .ok m
  | some ps =>
    if ps.isEmpty then .ok m
    else do
      let r ← insertPoints cfg { origin with z := origin.z + cfg.zOffset } (m, []) ps
      return releaseAll r.1 r.2

/-- The map after a sequence of insertions. -/
def insertClouds (cfg : MrvmCfg) : VMap → List (Option (List (InnerPoint Rat)) × Vec3 Rat) → Outcome VMap
  | m, [] => .ok m
  | m, c :: cs => do
    let m ← insertCloud cfg m c.1 c.2
    insertClouds cfg m cs

/-! ### output -/

/-- multi_resolution_voxel_map.cc:132 : conversion of a `float` to `uint8_t`; undefined outside 0..255. -/
def threshold8 (t : Rat) : Outcome Nat :=
  if 0 ≤ truncInt (t * 256) ∧ truncInt (t * 256) ≤ 255 then .ok (truncInt (t * 256)).toNat else .ub

/-- multi_resolution_voxel_map.cc:136-163 : what one voxel contributes, and its new content (the loop
writes the maximal intensity into the stored points, 154-157).  The intensity of an averaged point is
0 unless the maximum is used (pcl's default constructor). -/
def outputCell (cfg : MrvmCfg) (c : Cell) : List (InnerPoint Rat) × Cell :=
  if cfg.outputAverage then
    let n : Rat := c.points.length
    ([{ x := (c.points.map InnerPoint.x).sum / n, y := (c.points.map InnerPoint.y).sum / n,
        z := (c.points.map InnerPoint.z).sum / n,
        intensity := if cfg.useMaxIntensity then c.maxIntensity else 0, factor := 0 }], c)
  else if cfg.useMaxIntensity then
    let ps := c.points.map (fun p => { p with intensity := (c.maxIntensity : Rat) })
    (ps, { c with points := ps })
  else (c.points, c)

/-- multi_resolution_voxel_map.cc:133-165 : the loop over the stored voxels, in the table's order. -/
def outputCells (cfg : MrvmCfg) (t : Nat) : List (Voxel × Cell) → Outcome (List (InnerPoint Rat) × List (Voxel × Cell))
  | [] => .ok ([], [])
  | (v, c) :: rest =>
    if c.prob ≥ t then do
      Outcome.check (c.points ≠ [])
      let r ← outputCells cfg t rest
      return ((outputCell cfg c).1 ++ r.1, (v, (outputCell cfg c).2) :: r.2)
    else do
      let r ← outputCells cfg t rest
      return (r.1, (v, c) :: r.2)

/-- multi_resolution_voxel_map.cc:125-167 `OutputToPointCloud` (point and intensity version). -/
def outputCloud (cfg : MrvmCfg) (threshold : Rat) (table : List (Voxel × Cell)) :
    Outcome (List (InnerPoint Rat) × List (Voxel × Cell)) := do
  let t ← threshold8 threshold
  outputCells cfg t table

/-- multi_resolution_voxel_map.cc:181-187 : colour of a voxel in the RGB version; `intensity *= 1.4` on
`uint32_t` multiplies in `double` and truncates (an `int` times 1.4 is below 2^32). -/
def rgbOf (maxIntensity : Nat) : Nat := min 255 ⌊toF64 (maxIntensity * toF64 (14 / 10))⌋.toNat

/-- A point of the RGB cloud; the three colours are equal. -/
structure GreyPoint where
  x : Rat
  y : Rat
  z : Rat
  grey : Nat
  deriving DecidableEq

/-- multi_resolution_voxel_map.cc:182-208 : the points of one voxel in the RGB version (`max_intensity` starts at 0
and only grows, so the conversion to `uint32_t` keeps it). -/
def outputCellRgb (cfg : MrvmCfg) (c : Cell) : List GreyPoint :=
  if cfg.outputAverage then
    let n : Rat := c.points.length
    [{ x := (c.points.map InnerPoint.x).sum / n, y := (c.points.map InnerPoint.y).sum / n,
       z := (c.points.map InnerPoint.z).sum / n, grey := rgbOf c.maxIntensity.toNat }]
  else c.points.map (fun p => { x := p.x, y := p.y, z := p.z, grey := rgbOf c.maxIntensity.toNat })

/-- multi_resolution_voxel_map.cc:178-211. -/
def outputCellsRgb (cfg : MrvmCfg) (t : Nat) : List (Voxel × Cell) → Outcome (List GreyPoint)
  | [] => .ok []
  | (_, c) :: rest =>
    if c.prob ≥ t then do
      Outcome.check (c.points ≠ [])
      let r ← outputCellsRgb cfg t rest
      return outputCellRgb cfg c ++ r
    else outputCellsRgb cfg t rest

/-- multi_resolution_voxel_map.cc:169-213 `OutputToPointCloud`, the RGB version. -/
def outputCloudRgb (cfg : MrvmCfg) (threshold : Rat) (table : List (Voxel × Cell)) : Outcome (List GreyPoint) := do
  let t ← threshold8 threshold
  outputCellsRgb cfg t table

end Verif
