import Verif.Model.Outcome
import Mathlib.Algebra.Order.Field.Rat
import Mathlib.Data.Fin.VecNotation
/-
registrators/cuda/icp_cuda.cu:22-141 `knn_cugar`: the eight nearest neighbours on the graphics card.

Outside the model: the builder of the tree (`build`: box and points ↦ order of the points in the tree)
and the search (`search`: points in tree order and query ↦ eight pairs of squared distance and index),
both from the cugar library.  Coordinates are rational numbers (every float is one).  The counts are
natural numbers.  The library is not built by the CMake files of the project (CMakeLists.txt:36-71).
-/
namespace Verif

/-- `cugar::Vector4f` without its fourth coordinate. -/
abbrev GpuPoint := Fin 3 → Rat

/-- `a[i]` of an array. -/
def arrayAt (a : List Rat) (i : Nat) : Outcome Rat :=
  match a[i]? with
  | some x => .ok x
  | none => .ub

/-- 36-37, 60-62. -/
def gpuPoint (a : List Rat) (i : Nat) : Outcome GpuPoint := do
  let x ← arrayAt a (i * 3)
  let y ← arrayAt a (i * 3 + 1)
  let z ← arrayAt a (i * 3 + 2)
  return ![x, y, z]

/-- 34-37, 58-63: points `i … i + n - 1` of an array. -/
def gpuPoints (a : List Rat) : Nat → Nat → Outcome (List GpuPoint)
  | _, 0 => .ok []
  | i, n + 1 => do
    let p ← gpuPoint a i
    let ps ← gpuPoints a (i + 1) n
    return p :: ps

structure GpuBox where
  lo : GpuPoint
  hi : GpuPoint

/-- 38-56: one point. -/
def GpuBox.grow (b : GpuBox) (p : GpuPoint) : GpuBox :=
  { lo := fun i => if p i < b.lo i then p i else b.lo i
    hi := fun i => if b.hi i < p i then p i else b.hi i }

/-- 32-57. -/
def gpuBox (ps : List GpuPoint) : GpuBox :=
  ps.foldl GpuBox.grow { lo := fun _ => 1000000, hi := fun _ => -1000000 }

/-- 95-98 `thrust::gather`. -/
def gatherPoints (ps : List GpuPoint) : List Nat → Outcome (List GpuPoint)
  | [] => .ok []
  | k :: ks => do
    let p ← (match ps[k]? with | some p => Outcome.ok p | none => .ub)
    let r ← gatherPoints ps ks
    return p :: r

/-- 128: the place of neighbour `i` of query `j`. -/
def knnSlot (i j : Nat) : Nat := j * 8 + i

/-- 126-132: neighbour `i` of query `j` is copied; `order` is the order in which the threads do it. -/
def copyResults (results : List (Rat × Nat)) : List (Nat × Nat) → List (Rat × Nat) →
    Outcome (List (Rat × Nat))
  | [], out => .ok out
  | (i, j) :: rest, out =>
    match results[knnSlot i j]? with
    | none => .ub
    | some r => if knnSlot i j < out.length then copyResults results rest (out.set (knnSlot i j) r) else .ub

/-- 22-141.  `out`: what the two output arrays hold before (`none`: a null pointer). -/
def gpuKnn (build : GpuBox → List GpuPoint → List Nat)
    (search : List GpuPoint → GpuPoint → List (Rat × Nat)) (order : List (Nat × Nat))
    (ref : List Rat) (n : Nat) (query : List Rat) (m : Nat) (out : Option (List (Rat × Nat))) :
    Outcome (Option (List (Rat × Nat))) := do
  let ps ← gpuPoints ref 0 n
  let qs ← gpuPoints query 0 m
  let sorted ← gatherPoints ps ((build (gpuBox ps) ps).take n)
  match out with
  | none => .ok none
  | some o => do
    let r ← copyResults (qs.flatMap (search sorted)) order o
    return some r

end Verif
