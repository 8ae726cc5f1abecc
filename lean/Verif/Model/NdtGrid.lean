import Mathlib.LinearAlgebra.Matrix.Notation
import Mathlib.Algebra.Order.Field.Basic
import Mathlib.Algebra.Order.Floor.Ring
import Verif.Model.Outcome
/-! The cells of the normal distributions transform: the grid over the target cloud that the "ndt"
and "ndt_gicp" matchers align against.

Models `registrators/pclomp/voxel_grid_covariance_omp.h` and `voxel_grid_covariance_omp_impl.hpp` as
they are used by `ndt_omp.h` 118-122 and 272-278 (`setInputTarget`, `init`) and `ndt_omp_impl.hpp`
192-194 (`radiusSearch`).

Arithmetic is exact, over any ordered field `K` with floors (`ℚ` or `ℝ`); the integers are C's 32-bit
`int`, whose overflow is undefined behaviour. All points are finite (`is_dense`), the filter field is
not set (nobody sets it) and the intensity fields are not averaged (`downsample_all_data_ = false`).
The eigenvalue solver and the inverse of Eigen and the kd-tree of PCL are parameters. -/
namespace Verif

section
variable {K : Type} [Field K] [LinearOrder K] [IsStrictOrderedRing K] [FloorRing K]

/-- A point or vector, `Eigen::Vector3d`. -/
abbrev NVec (K : Type) := Fin 3 → K

/-- `Eigen::Matrix3d`. -/
abbrev NMat (K : Type) := Matrix (Fin 3) (Fin 3) K

/-- `pt3d * pt3d.transpose ()`, `pt_sum * leaf.mean_.transpose ()` (lines 229, 329). -/
def outer (a b : NVec K) : NMat K := fun i j => a i * b j

/-- `VoxelGridCovariance::Leaf` (voxel_grid_covariance_omp.h 91-184); `evals_`, `evecs_` and `centroid`
are not read by the matcher, `centroid` being the mean in single precision. -/
structure NdtLeaf (K : Type) where
  n : Int
  mean : NVec K
  cov : NMat K
  icov : NMat K

/-- The constructor `Leaf ()` (voxel_grid_covariance_omp.h 96-106): no points, the covariance is the
identity matrix. -/
def NdtLeaf.new : NdtLeaf K := ⟨0, 0, 1, 0⟩

/-- One point is added to its leaf (voxel_grid_covariance_omp_impl.hpp 219-229, 255). -/
def NdtLeaf.add (l : NdtLeaf K) (p : NVec K) : NdtLeaf K :=
  { l with n := l.n + 1, mean := l.mean + p, cov := l.cov + outer p p }

/-- `leaves_[idx]` changed in place, in the `std::map` `leaves_`: entries are in ascending order and a
missing one is made by the constructor (line 217). -/
def leafAt {L : Type} (new : L) (k : Int) (f : L → L) : List (Int × L) → List (Int × L)
  | [] => [(k, f new)]
  | (k', l) :: rest =>
    if k = k' then (k', f l) :: rest
    else if k < k' then (k, f new) :: (k', l) :: rest
    else (k', l) :: leafAt new k f rest

/-- The parameters of the grid: `leaf_size_`, the same in all directions (ndt_omp.h 274),
`min_points_per_voxel_` and `min_covar_eigvalue_mult_` (voxel_grid_covariance_omp.h 203-205). -/
structure NdtGridConfig (K : Type) where
  leaf : K
  minPoints : Int
  mult : K

/-- The numerical routines of Eigen used: `SelfAdjointEigenSolver::compute`, giving the eigenvalues in
ascending order and the matrix of the eigenvectors in its columns, and `inverse`. -/
structure NdtNumerics (K : Type) where
  eigenvalues : NMat K → NVec K
  eigenvectors : NMat K → NMat K
  inverse : NMat K → NMat K

/-- `min_b_`, `max_b_` and, from them, `div_b_` and `divb_mul_`. -/
structure NdtBox where
  lo : Fin 3 → Int
  hi : Fin 3 → Int

/-- `div_b_` (line 94). -/
def NdtBox.div (b : NdtBox) (i : Fin 3) : Int := b.hi i - b.lo i + 1

/-- The state of a `VoxelGridCovariance` object: `leaves_`, `voxel_centroids_leaf_indices_`, the box
and the points in the kd-tree `kdtree_` (`none`: never built). -/
structure NdtGrid (K : Type) where
  leaves : List (Int × NdtLeaf K)
  indices : List Int
  box : NdtBox
  tree : Option (List (NVec K))

/-- The constructor `VoxelGridCovariance ()` (voxel_grid_covariance_omp.h 201-217). -/
def NdtGrid.new : NdtGrid K := ⟨[], [], ⟨0, 0⟩, none⟩

/-- A value stored in an `int`. -/
def ndtInt (z : Int) : Outcome Int := if -2147483648 ≤ z ∧ z ≤ 2147483647 then .ok z else .ub

/-- The least (`pcl::getMinMax3D`, line 73) of the coordinates of a non-empty cloud. -/
def coordMin (i : Fin 3) (p : NVec K) (ps : List (NVec K)) : K := ps.foldl (fun m q => min m (q i)) (p i)

/-- The greatest of the coordinates. -/
def coordMax (i : Fin 3) (p : NVec K) (ps : List (NVec K)) : K := ps.foldl (fun m q => max m (q i)) (p i)

/-- `dx`, `dy`, `dz` (lines 76-78). -/
def ndtExtent (c : NdtGridConfig K) (i : Fin 3) (p : NVec K) (ps : List (NVec K)) : Int :=
  ⌊(coordMax i p ps - coordMin i p ps) * (1 / c.leaf)⌋ + 1

/-- `min_b_`, `max_b_` (lines 88-93). -/
def ndtBox (c : NdtGridConfig K) (p : NVec K) (ps : List (NVec K)) : NdtBox :=
  ⟨fun i => ⌊coordMin i p ps * (1 / c.leaf)⌋, fun i => ⌊coordMax i p ps * (1 / c.leaf)⌋⟩

/-- The number of the leaf of a point (lines 210-215): each product and sum is an `int`. -/
def leafIndex (c : NdtGridConfig K) (b : NdtBox) (p : NVec K) : Outcome Int := do
  let i0 ← ndtInt (⌊p 0 * (1 / c.leaf)⌋ - b.lo 0)
  let i1 ← ndtInt (⌊p 1 * (1 / c.leaf)⌋ - b.lo 1)
  let i2 ← ndtInt (⌊p 2 * (1 / c.leaf)⌋ - b.lo 2)
  let a1 ← ndtInt (i1 * b.div 0)
  let a2 ← ndtInt (i2 * (b.div 0 * b.div 1))
  let s ← ndtInt (i0 + a1)
  ndtInt (s + a2)

/-- The first pass (lines 200-256). -/
def ndtFirstPass (c : NdtGridConfig K) (b : NdtBox) :
    List (NVec K) → List (Int × NdtLeaf K) → Outcome (List (Int × NdtLeaf K))
  | [], m => .ok m
  | p :: ps, m => do
    let idx ← leafIndex c b p
    ndtFirstPass c b ps (leafAt NdtLeaf.new idx (·.add p) m)

/-- The covariance of a leaf (lines 329-330). -/
def ndtCov (l : NdtLeaf K) : NMat K :=
  let mean := fun i => l.mean i / (l.n : K)
  let s := fun i j => (l.cov i j - 2 * outer l.mean mean i j) / (l.n : K) + outer mean mean i j
  fun i j => s i j * (((l.n : K) - 1) / (l.n : K))

/-- Small eigenvalues are raised (lines 346-355): the new eigenvalues, if any of them was raised. -/
def raise (mult : K) (e : NVec K) : Option (NVec K) :=
  let least := mult * e 2
  if e 0 < least then some ![least, if e 1 < least then least else e 1, e 2] else none

/-- The second pass for one leaf (lines 283-366). -/
def finishLeaf (c : NdtGridConfig K) (num : NdtNumerics K) (l : NdtLeaf K) : NdtLeaf K :=
  let mean := fun i => l.mean i / (l.n : K)
  if c.minPoints ≤ l.n then
    let cov := ndtCov l
    let e := num.eigenvalues cov
    let v := num.eigenvectors cov
    if e 0 < 0 ∨ e 1 < 0 ∨ e 2 ≤ 0 then { l with n := -1, mean := mean, cov := cov }
    else
      let cov' := match raise c.mult e with
        | some e' => v * Matrix.diagonal e' * num.inverse v
        | none => cov
      { l with mean := mean, cov := cov', icov := num.inverse cov' }
  else { l with mean := mean }

/-- `applyFilter` and `filter (true)` (voxel_grid_covariance_omp_impl.hpp 49-370,
voxel_grid_covariance_omp.h 261-273) for the non-empty cloud `p :: ps`: `indices` is cleared first; a
grid of too many cells leaves everything else as it was; the kd-tree is built only if there is a cell
with enough points. -/
def NdtGrid.filter (c : NdtGridConfig K) (num : NdtNumerics K) (g : NdtGrid K) (p : NVec K) (ps : List (NVec K)) :
    Outcome (NdtGrid K) :=
  if ndtExtent c 0 p ps * ndtExtent c 1 p ps * ndtExtent c 2 p ps > 2147483647 then
    .ok { g with indices := [] }
  else do
    let b := ndtBox c p ps
    let _ ← ndtInt (b.lo 0)
    let _ ← ndtInt (b.hi 0)
    let _ ← ndtInt (b.lo 1)
    let _ ← ndtInt (b.hi 1)
    let _ ← ndtInt (b.lo 2)
    let _ ← ndtInt (b.hi 2)
    let _ ← ndtInt (b.div 0 * b.div 1)
    let m ← ndtFirstPass c b (p :: ps) []
    let full := m.filter (fun e => decide (c.minPoints ≤ e.2.n))
    let done := m.map (fun e => (e.1, finishLeaf c num e.2))
    let centroids : List (NVec K) := full.map (fun e => fun i => e.2.mean i / (e.2.n : K))
    return ⟨done, full.map (·.1), b, if centroids = [] then g.tree else some centroids⟩

/-- `radiusSearch` (voxel_grid_covariance_omp.h 462-488): the kd-tree answers with the numbers of the
points in it that are `near` the query; searching a tree that was never built, and a number outside
`voxel_centroids_leaf_indices_`, are undefined. -/
def NdtGrid.search (g : NdtGrid K) (near : NVec K → Bool) : Outcome (List (NdtLeaf K)) :=
  match g.tree with
  | none => .ub
  | some cs => ((cs.zipIdx.filter (fun e => near e.1)).mapM fun e =>
      match g.indices[e.2]? with
      | none => Outcome.ub
      | some k => match g.leaves.lookup k with
        | none => Outcome.ub
        | some l => Outcome.ok l)

end
end Verif
