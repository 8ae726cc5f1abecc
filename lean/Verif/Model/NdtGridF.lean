import Verif.Model.NdtGrid
import Verif.Model.Floats
/-! The cells of the normal distributions transform once more, with the number types of the code.

Models `registrators/pclomp/voxel_grid_covariance_omp_impl.hpp` 60-395 like `Model/NdtGrid`, but with
the `float` and `double` roundings of `Model/Floats` and the 64-bit product of line 80.  Points are
finite `float`s, and the leaf size is the same in all directions (ndt_omp.h 274).  Eigen's expressions
are rounded one operation at a time, which is how Eigen 3.3 evaluates them without fused
multiplication.  Left out: what is done with the covariance after it is formed (eigenvalues, inverse:
`Model/NdtGrid`). -/
namespace Verif

/-- `VoxelGridCovariance::Leaf` (voxel_grid_covariance_omp.h 91-184): `nr_points`, `mean_` and `cov_`
in `double`, `centroid` in `float`. -/
structure NdtLeafF where
  n : Int
  mean : NVec ℚ
  cov : NMat ℚ
  centroid : NVec ℚ

/-- The constructor `Leaf ()` (voxel_grid_covariance_omp.h 96-106), and `centroid.setZero ()`
(voxel_grid_covariance_omp_impl.hpp 218-222). -/
def NdtLeafF.new : NdtLeafF := ⟨0, 0, 1, 0⟩

/-- One point is added to its leaf (voxel_grid_covariance_omp_impl.hpp 224-235, 255). -/
def NdtLeafF.add (l : NdtLeafF) (p : NVec ℚ) : NdtLeafF :=
  { n := l.n + 1
    mean := fun i => toF64 (l.mean i + p i)
    cov := fun i j => toF64 (l.cov i j + toF64 (p i * p j))
    centroid := fun i => toF32 (l.centroid i + p i) }

/-- `floor (x * inverse_leaf_size_[i])` (lines 86-91, 210-212): the cell of a coordinate when the grid is
built; `inverse_leaf_size_` is `1 / leaf_size_`, computed once (`setLeafSize` of PCL). -/
def cellMul (leaf x : ℚ) : Int := ⌊toF32 (x * toF32 (1 / leaf))⌋

/-- `floor (x / leaf_size_[i])` (lines 377-379): the cell of a coordinate when the grid is searched. -/
def cellDiv (leaf x : ℚ) : Int := ⌊toF32 (x / leaf)⌋

/-- `min_b_`, `max_b_` (lines 86-91); `getMinMax3D` compares only. -/
def ndtBoxF (leaf : ℚ) (p : NVec ℚ) (ps : List (NVec ℚ)) : NdtBox :=
  ⟨fun i => cellMul leaf (coordMin i p ps), fun i => cellMul leaf (coordMax i p ps)⟩

/-- One coordinate of the cell, counted from the corner of the grid (lines 210-212): a difference of two
`float`s, of which the second is `min_b_[i]` converted back, converted to `int`.  The difference is a
whole number, so that cutting off and rounding down are the same. -/
def cellStep (leaf : ℚ) (b : NdtBox) (i : Fin 3) (p : NVec ℚ) : Int :=
  ⌊toF32 (cellMul leaf (p i) - toF32 (b.lo i))⌋

/-- The number of the leaf of a point (lines 210-215). -/
def leafIndexF (leaf : ℚ) (b : NdtBox) (p : NVec ℚ) : Outcome Int := do
  let i0 ← ndtInt (cellStep leaf b 0 p)
  let i1 ← ndtInt (cellStep leaf b 1 p)
  let i2 ← ndtInt (cellStep leaf b 2 p)
  let a1 ← ndtInt (i1 * b.div 0)
  let a2 ← ndtInt (i2 * (b.div 0 * b.div 1))
  let s ← ndtInt (i0 + a1)
  ndtInt (s + a2)

/-- The first pass (lines 200-257). -/
def ndtFirstPassF (leaf : ℚ) (b : NdtBox) :
    List (NVec ℚ) → List (Int × NdtLeafF) → Outcome (List (Int × NdtLeafF))
  | [], m => .ok m
  | p :: ps, m => do
    let idx ← leafIndexF leaf b p
    ndtFirstPassF leaf b ps (leafAt NdtLeafF.new idx (·.add p) m)

/-- The mean (line 288). -/
def ndtMeanF (l : NdtLeafF) : NVec ℚ := fun i => toF64 (l.mean i / l.n)

/-- `leaf.cov_` after lines 326-327; `2 *` and the conversions of `nr_points` to `double` are exact. -/
def ndtCovF (l : NdtLeafF) : NMat ℚ := fun i j =>
  let m := ndtMeanF l
  let d := toF64 (l.cov i j - 2 * toF64 (l.mean i * m j))
  let s := toF64 (toF64 (d / l.n) + toF64 (m i * m j))
  toF64 (s * toF64 ((l.n - 1) / l.n))

/-- A leaf after the second pass (lines 280-327), without the eigenvalues. -/
def finishLeafF (minPoints : Int) (l : NdtLeafF) : NdtLeafF :=
  { n := l.n
    mean := ndtMeanF l
    cov := if minPoints ≤ l.n then ndtCovF l else l.cov
    centroid := fun i => toF32 (l.centroid i / toF32 l.n) }

/-- Results of 64-bit arithmetic and of conversions to `int64_t`. -/
def ndtLong (z : Int) : Outcome Int :=
  if -9223372036854775808 ≤ z ∧ z ≤ 9223372036854775807 then .ok z else .ub

/-- `dx`, `dy`, `dz` (lines 75-77). -/
def ndtExtentF (leaf : ℚ) (i : Fin 3) (p : NVec ℚ) (ps : List (NVec ℚ)) : Outcome Int := do
  let z ← ndtLong ⌊toF32 (toF32 (coordMax i p ps - coordMin i p ps) * toF32 (1 / leaf))⌋
  ndtLong (z + 1)

/-- `applyFilter` (lines 60-395) on a cloud of at least one point: the box and the leaves, or `none` if
the cloud is refused (lines 79-84). -/
def ndtFilterF (leaf : ℚ) (minPoints : Int) (p : NVec ℚ) (ps : List (NVec ℚ)) :
    Outcome (Option (NdtBox × List (Int × NdtLeafF))) := do
  let dx ← ndtExtentF leaf 0 p ps
  let dy ← ndtExtentF leaf 1 p ps
  let dz ← ndtExtentF leaf 2 p ps
  let dxy ← ndtLong (dx * dy)
  let d ← ndtLong (dxy * dz)
  if d > 2147483647 then return none
  else do
    let b := ndtBoxF leaf p ps
    let _ ← ndtInt (b.lo 0)
    let _ ← ndtInt (b.hi 0)
    let _ ← ndtInt (b.lo 1)
    let _ ← ndtInt (b.hi 1)
    let _ ← ndtInt (b.lo 2)
    let _ ← ndtInt (b.hi 2)
    let _ ← ndtInt (b.div 0 * b.div 1)
    let m ← ndtFirstPassF leaf b (p :: ps) []
    return some (b, m.map fun e => (e.1, finishLeafF minPoints e.2))

end Verif
