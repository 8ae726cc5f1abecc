import Verif.Model.NdtGrid
/-
registrators/pclomp/voxel_grid_covariance_omp_impl.hpp:373-446: the cells near a point by their place
in the grid (`DIRECT7`, `DIRECT26`, `DIRECT1` of ndt_omp_impl.hpp:233-247; the "ndt" matcher asks for
`KDTREE` instead, registrators/ndt.cc:33).

Numbers as in `NdtGrid`.  The table of `DIRECT26` is PCL's `getAllNeighborCellIndices`
(pcl/filters/voxel_grid.h), which is not part of the repository: the thirteen steps of
`getHalfNeighborCellIndices` and their opposites.
-/
namespace Verif

section
variable {K : Type} [Field K] [LinearOrder K] [IsStrictOrderedRing K] [FloorRing K]

/-- 424-432. -/
def steps7 : List (Fin 3 → Int) :=
  [![0, 0, 0], ![1, 0, 0], ![-1, 0, 0], ![0, 1, 0], ![0, -1, 0], ![0, 0, 1], ![0, 0, -1]]

/-- 443. -/
def steps1 : List (Fin 3 → Int) := [![0, 0, 0]]

/-- `getHalfNeighborCellIndices`. -/
def halfSteps : List (Fin 3 → Int) :=
  [![-1, -1, -1], ![-1, 0, -1], ![-1, 1, -1], ![0, -1, -1], ![0, 0, -1], ![0, 1, -1], ![1, -1, -1],
   ![1, 0, -1], ![1, 1, -1], ![-1, -1, 0], ![0, -1, 0], ![1, -1, 0], ![-1, 0, 0]]

/-- 411-413. -/
def steps26 : List (Fin 3 → Int) := halfSteps ++ halfSteps.map fun d i => -d i

/-- 379-383: displacements from the cell of a point to the ends of the grid, in `int`. -/
def toEnds (b : NdtBox) (u : Fin 3 → Int) (i : Fin 3) : Outcome Unit := do
  let _ ← ndtInt (u i)
  let _ ← ndtInt (b.lo i - u i)
  let _ ← ndtInt (b.hi i - u i)
  return ()

/-- 393-394 `(ijk + displacement - min_b_).dot (divb_mul_)`. -/
def cellNumber (b : NdtBox) (v : Fin 3 → Int) : Outcome Int := do
  let a1 ← ndtInt ((v 1 - b.lo 1) * b.div 0)
  let a2 ← ndtInt ((v 2 - b.lo 2) * (b.div 0 * b.div 1))
  let s ← ndtInt (v 0 - b.lo 0 + a1)
  ndtInt (s + a2)

/-- 390-400: one displacement. -/
def oneStep (c : NdtGridConfig K) (g : NdtGrid K) (u d : Fin 3 → Int) : Outcome (Option (NdtLeaf K)) :=
  if (∀ i, g.box.lo i - u i ≤ d i) ∧ ∀ i, d i ≤ g.box.hi i - u i then do
    let k ← cellNumber g.box (fun i => u i + d i)
    return (g.leaves.lookup k).filter fun l => decide (c.minPoints ≤ l.n)
  else .ok none

/-- 387-401: all displacements. -/
def allSteps (c : NdtGridConfig K) (g : NdtGrid K) (u : Fin 3 → Int) :
    List (Fin 3 → Int) → Outcome (List (NdtLeaf K))
  | [] => .ok []
  | d :: ds => do
    let o ← oneStep c g u d
    let r ← allSteps c g u ds
    return o.toList ++ r

/-- 373-404 `getNeighborhoodAtPoint`. -/
def NdtGrid.direct (c : NdtGridConfig K) (g : NdtGrid K) (steps : List (Fin 3 → Int)) (p : NVec K) :
    Outcome (List (NdtLeaf K)) := do
  let _ ← toEnds g.box (fun i => ⌊p i / c.leaf⌋) 0
  let _ ← toEnds g.box (fun i => ⌊p i / c.leaf⌋) 1
  let _ ← toEnds g.box (fun i => ⌊p i / c.leaf⌋) 2
  allSteps c g (fun i => ⌊p i / c.leaf⌋) steps

end
end Verif
