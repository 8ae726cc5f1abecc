import Verif.Model.Octree
import Verif.Model.Floats
/-
common/bounding_box.cc (cubes) and common/octree.{h,cc} with every rounding of `double`.
`Model/Octree.lean` is the same code over exact numbers.
-/
namespace Verif

/-- `CHECK_DOUBLE_EQ` of glog: `val1 <= val2 + 1e-15L` and `val1 >= val2 - 1e-15L`, computed in
`long double` (64 bits on x86-64). -/
def dblNear (a b : Rat) : Prop :=
  a ≤ flRound 64 (b + flRound 64 (1 / 10 ^ 15)) ∧ flRound 64 (b - flRound 64 (1 / 10 ^ 15)) ≤ a

instance (a b : Rat) : Decidable (dblNear a b) := by unfold dblNear; infer_instance

namespace CubeBox

/-- bounding_box.cc:30-35. -/
def ofCenterF (c : Pt) (size : Rat) : CubeBox :=
  let h := toF64 (size * (1/2))
  { center := c
    min := ⟨toF64 (c.x - h), toF64 (c.y - h), toF64 (c.z - h)⟩
    max := ⟨toF64 (c.x + h), toF64 (c.y + h), toF64 (c.z + h)⟩
    size := size
    half := toF64 ((1/2) * size) }

/-- bounding_box.cc:37-46. -/
def ofMinMaxF (mn mx : Pt) : Outcome CubeBox := do
  let size := toF64 (mx.x - mn.x)
  Outcome.check (dblNear (toF64 (mx.y - mn.y)) size)
  Outcome.check (dblNear (toF64 (mx.z - mn.z)) size)
  return { center := ⟨toF64 ((1/2) * toF64 (mn.x + mx.x)), toF64 ((1/2) * toF64 (mn.y + mx.y)),
                      toF64 ((1/2) * toF64 (mn.z + mx.z))⟩
           min := mn, max := mx, size := size, half := toF64 ((1/2) * size) }

/-- bounding_box.cc:103-107. -/
def containsF (b : CubeBox) (p : Pt) : Bool :=
  |toF64 (p.x - b.center.x)| ≤ b.half && |toF64 (p.y - b.center.y)| ≤ b.half &&
    |toF64 (p.z - b.center.z)| ≤ b.half

/-- `center_ - Vector3d(..)`, `max_ - Vector3d(..)` in bounding_box.cc:57-71. -/
def shiftedF (b : CubeBox) (dx dy dz : Rat) : Outcome CubeBox :=
  ofMinMaxF ⟨toF64 (b.center.x - dx), toF64 (b.center.y - dy), toF64 (b.center.z - dz)⟩
    ⟨toF64 (b.max.x - dx), toF64 (b.max.y - dy), toF64 (b.max.z - dz)⟩

/-- bounding_box.cc:48-72. -/
def subBoxesF (b : CubeBox) : Outcome (List CubeBox) := do
  let b0 ← ofMinMaxF b.center b.max
  let b1 ← b.shiftedF b.half 0 0
  let b2 ← b.shiftedF b.half b.half 0
  let b3 ← b.shiftedF 0 b.half 0
  let b4 ← b.shiftedF 0 0 b.half
  let b5 ← b.shiftedF b.half 0 b.half
  let b6 ← b.shiftedF b.half b.half b.half
  let b7 ← b.shiftedF 0 b.half b.half
  return [b0, b1, b2, b3, b4, b5, b6, b7]

/-- bounding_box.cc:74-101. -/
def subIndexF (b : CubeBox) (p : Pt) : Int :=
  if !(b.containsF p) then -1
  else
    let ox := toF64 (p.x - b.center.x)
    let oy := toF64 (p.y - b.center.y)
    let oz := toF64 (p.z - b.center.z)
    let index : Int := if ox ≥ 0 then (if oy ≥ 0 then 0 else 3) else (if oy ≥ 0 then 1 else 2)
    if oz < 0 then index + 4 else index

end CubeBox

/-- octree.cc:57-64 : the points sent to child `i`. -/
def octSubF (box : CubeBox) (points : List Pt) (i : Int) : List Pt :=
  points.filter (fun p => box.subIndexF p = i)

/-- octree.cc:39-72 (`fuel` as in `octBuild`). -/
def octBuildF (cfg : OctreeConfig) : Nat → Int → CubeBox → List Pt → Outcome OctNode
  | 0, _, _, _ => .ub
  | fuel + 1, depth, box, points =>
    if depth = cfg.maxDepth || sizeLeMaxNum points.length cfg.maxNum then
      .ok (.leaf depth box points)
    else do
      match ← box.subBoxesF with
      | [s0, s1, s2, s3, s4, s5, s6, s7] =>
        let c0 ← octBuildF cfg fuel (depth + 1) s0 (octSubF box points 0)
        let c1 ← octBuildF cfg fuel (depth + 1) s1 (octSubF box points 1)
        let c2 ← octBuildF cfg fuel (depth + 1) s2 (octSubF box points 2)
        let c3 ← octBuildF cfg fuel (depth + 1) s3 (octSubF box points 3)
        let c4 ← octBuildF cfg fuel (depth + 1) s4 (octSubF box points 4)
        let c5 ← octBuildF cfg fuel (depth + 1) s5 (octSubF box points 5)
        let c6 ← octBuildF cfg fuel (depth + 1) s6 (octSubF box points 6)
        let c7 ← octBuildF cfg fuel (depth + 1) s7 (octSubF box points 7)
        return .node depth box c0 c1 c2 c3 c4 c5 c6 c7
      | _ => .ub

/-- octree.cc:74-84 (points already three rows high). -/
def octInitF (cfg : OctreeConfig) (fuel : Nat) (points : List Pt) : Outcome OctNode :=
  octBuildF cfg fuel 0 (CubeBox.ofCenterF cfg.center cfg.maxSize) points

end Verif
