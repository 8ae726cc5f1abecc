import Verif.Model.CastF
import Verif.Model.Filters
/-
Averages with the precision of the code: the voxel-grid filter (pre_processors/filter_voxel_grid.cc),
which sums in `double`, and the averaged output of the static map
(builder/multi_resolution_voxel_map.cc:136-151), which sums in `float`.
-/
namespace Verif

/-- filter_voxel_grid.cc:58-64 : one component of `sum`. -/
def sumF64 (xs : List ℚ) : ℚ := xs.foldl (fun s x => toF64 (s + x)) 0

/-- filter_voxel_grid.cc:66-71 : `sum / size` in `double`, stored in a `float`. -/
def avgF64 (xs : List ℚ) : ℚ := toF32 (toF64 (sumF64 xs / xs.length))

/-- multi_resolution_voxel_map.cc:137-142 : pcl points start at zero. -/
def sumF32 (xs : List ℚ) : ℚ := xs.foldl (fun s x => toF32 (s + x)) 0

/-- multi_resolution_voxel_map.cc:143-146. -/
def avgF32 (xs : List ℚ) : ℚ := toF32 (sumF32 xs / toF32 xs.length)

/-- filter_voxel_grid.cc:47-49 : the quotient is a `float`; the `long` is stored in an `int`. -/
def gridIdxF (size t : ℚ) : Int := wrap32 (lround (toF32 (t / size)))

def gridKeyF (size : ℚ) (p : InnerPoint Rat) : Voxel :=
  ⟨gridIdxF size p.x, gridIdxF size p.y, gridIdxF size p.z⟩

/-- The result of `lround` is specified: it fits a `long`. -/
def longOk (size t : ℚ) : Prop :=
  -9223372036854775808 ≤ lround (toF32 (t / size)) ∧ lround (toF32 (t / size)) ≤ 9223372036854775807

instance (size t : ℚ) : Decidable (longOk size t) := by unfold longOk; infer_instance

/-- filter_voxel_grid.cc:53-73. -/
def averagePointF (ps : List (InnerPoint Rat)) : Outcome (InnerPoint Rat) := do
  Outcome.check (ps ≠ [])
  return { x := avgF64 (ps.map (·.x)), y := avgF64 (ps.map (·.y)), z := avgF64 (ps.map (·.z)),
           intensity := avgF64 (ps.map (·.intensity)), factor := 0 }

/-- filter_voxel_grid.cc:75-78. -/
def averageAllF : List (Voxel × List (InnerPoint Rat)) → Outcome (List (InnerPoint Rat))
  | [] => .ok []
  | (_, ps) :: rest => do
    let a ← averagePointF ps
    let as ← averageAllF rest
    return a :: as

/-- filter_voxel_grid.cc:37-79 `VoxelGrid::Filter`. -/
def voxelGridFilterF (size : ℚ) (io : IterOrder (Voxel × List (InnerPoint Rat)))
    (st : FState Rat) (out : InnerCloud Rat) : Outcome (FState Rat × InnerCloud Rat) :=
  match st.input with
  | none => .ok (st, out)
  | some c =>
    if ∀ p ∈ c.points, longOk size p.x ∧ longOk size p.y ∧ longOk size p.z then do
      let (st, out) := filterPrepare st c out
      let pts ← averageAllF (io.order (bucketAll (gridKeyF size) c.points))
      return (st, { out with points := out.points ++ pts })
    else .ub

/-- multi_resolution_voxel_map.cc:137-151 : the averaged point of a voxel. -/
def outputCellF (cfg : MrvmCfg) (c : Cell) : InnerPoint Rat :=
  { x := avgF32 (c.points.map (·.x)), y := avgF32 (c.points.map (·.y)), z := avgF32 (c.points.map (·.z)),
    intensity := if cfg.useMaxIntensity then c.maxIntensity else 0, factor := 0 }

/-- multi_resolution_voxel_map.cc:133-151 : the loop with `output_average` set. The table is in the order of
the hash map. -/
def outputCellsF (cfg : MrvmCfg) (t : Nat) : List (Voxel × Cell) → Outcome (List (InnerPoint Rat))
  | [] => .ok []
  | (_, c) :: rest =>
    if c.prob ≥ t then do
      Outcome.check (c.points ≠ [])
      let r ← outputCellsF cfg t rest
      return outputCellF cfg c :: r
    else outputCellsF cfg t rest

/-- multi_resolution_voxel_map.cc:125-170 `OutputToPointCloud` with `output_average` set. The product of the
threshold with 256 is exact in `float`. -/
def outputAverageF (cfg : MrvmCfg) (threshold : Rat) (table : List (Voxel × Cell)) :
    Outcome (List (InnerPoint Rat)) := do
  let t ← threshold8 threshold
  outputCellsF cfg t table

end Verif
