import Verif.Model.Outcome
import Verif.Model.Geom
/-
common/bounding_box.cc (cubes) and common/octree.{h,cc}.
`double` coordinates are exact rationals.  `CHECK_DOUBLE_EQ` (equality up to 1e-15) becomes
exact equality.
-/
namespace Verif

abbrev Pt := Vec3 Rat

/-- bounding_box.h : `CubeBoundingBox`. -/
structure CubeBox where
  center : Pt
  min : Pt
  max : Pt
  size : Rat
  half : Rat
  deriving Repr, DecidableEq

namespace CubeBox

/-- bounding_box.cc:30-35. -/
def ofCenter (c : Pt) (size : Rat) : CubeBox :=
  { center := c
    min := ⟨c.x - size * (1/2), c.y - size * (1/2), c.z - size * (1/2)⟩
    max := ⟨c.x + size * (1/2), c.y + size * (1/2), c.z + size * (1/2)⟩
    size := size
    half := (1/2) * size }

/-- bounding_box.cc:37-46, with its two checks. -/
def ofMinMax (mn mx : Pt) : Outcome CubeBox := do
  let size := mx.x - mn.x
  Outcome.check (mx.y - mn.y = size)
  Outcome.check (mx.z - mn.z = size)
  return { center := ⟨(1/2) * (mn.x + mx.x), (1/2) * (mn.y + mx.y), (1/2) * (mn.z + mx.z)⟩
           min := mn, max := mx, size := size, half := (1/2) * size }

/-- bounding_box.cc:103-107. -/
def contains (b : CubeBox) (p : Pt) : Bool :=
  |p.x - b.center.x| ≤ b.half && |p.y - b.center.y| ≤ b.half && |p.z - b.center.z| ≤ b.half

/-- `center_ - Vector3d(..)`, `max_ - Vector3d(..)` in bounding_box.cc:56-71. -/
def shifted (b : CubeBox) (dx dy dz : Rat) : Outcome CubeBox :=
  ofMinMax ⟨b.center.x - dx, b.center.y - dy, b.center.z - dz⟩
    ⟨b.max.x - dx, b.max.y - dy, b.max.z - dz⟩

/-- bounding_box.cc:48-72. -/
def subBoxes (b : CubeBox) : Outcome (List CubeBox) := do
  let b0 ← b.shifted 0 0 0
  let b1 ← b.shifted b.half 0 0
  let b2 ← b.shifted b.half b.half 0
  let b3 ← b.shifted 0 b.half 0
  let b4 ← b.shifted 0 0 b.half
  let b5 ← b.shifted b.half 0 b.half
  let b6 ← b.shifted b.half b.half b.half
  let b7 ← b.shifted 0 b.half b.half
  return [b0, b1, b2, b3, b4, b5, b6, b7]

/-- bounding_box.cc:74-101. -/
def subIndex (b : CubeBox) (p : Pt) : Int :=
  if !(b.contains p) then -1
  else
    let ox := p.x - b.center.x
    let oy := p.y - b.center.y
    let oz := p.z - b.center.z
    let index : Int := if ox ≥ 0 then (if oy ≥ 0 then 0 else 3) else (if oy ≥ 0 then 1 else 2)
    if oz < 0 then index + 4 else index

end CubeBox

/-- octree.h:46-60.  A node is a leaf with points or has exactly eight children
(`children_.resize(8)` and the loop octree.cc:66-70 fill all of them). -/
inductive OctNode where
  | leaf (depth : Int) (box : CubeBox) (points : List Pt)
  | node (depth : Int) (box : CubeBox) (c0 c1 c2 c3 c4 c5 c6 c7 : OctNode)
  deriving Repr

/-- octree.h:39-44. -/
structure OctreeConfig where
  center : Pt
  maxSize : Rat := 100
  maxDepth : Int := 15
  maxNum : Int := 4

/-- `points.size() <= config_.max_num_points_in_voxel` (octree.cc:47): the `int32_t` is converted
to `size_t`, so a negative limit becomes larger than any size. -/
def sizeLeMaxNum (n : Nat) (maxNum : Int) : Bool :=
  if maxNum < 0 then (n : Int) ≤ maxNum + 2 ^ 64 else (n : Int) ≤ maxNum

/-- octree.cc:57-64 : the points sent to child `i`. -/
def octSub (box : CubeBox) (points : List Pt) (i : Int) : List Pt :=
  points.filter (fun p => box.subIndex p = i)

/-- octree.cc:39-72.  `fuel` bounds the recursion depth; running out of it stands for unbounded
recursion (stack overflow), which happens only if `depth` can never reach `max_depth`. -/
def octBuild (cfg : OctreeConfig) : Nat → Int → CubeBox → List Pt → Outcome OctNode
  | 0, _, _, _ => .ub
  | fuel + 1, depth, box, points =>
    if depth = cfg.maxDepth || sizeLeMaxNum points.length cfg.maxNum then
      .ok (.leaf depth box points)
    else do
      match ← box.subBoxes with
      | [s0, s1, s2, s3, s4, s5, s6, s7] =>
        let c0 ← octBuild cfg fuel (depth + 1) s0 (octSub box points 0)
        let c1 ← octBuild cfg fuel (depth + 1) s1 (octSub box points 1)
        let c2 ← octBuild cfg fuel (depth + 1) s2 (octSub box points 2)
        let c3 ← octBuild cfg fuel (depth + 1) s3 (octSub box points 3)
        let c4 ← octBuild cfg fuel (depth + 1) s4 (octSub box points 4)
        let c5 ← octBuild cfg fuel (depth + 1) s5 (octSub box points 5)
        let c6 ← octBuild cfg fuel (depth + 1) s6 (octSub box points 6)
        let c7 ← octBuild cfg fuel (depth + 1) s7 (octSub box points 7)
        return .node depth box c0 c1 c2 c3 c4 c5 c6 c7
      | _ => .ub

/-- octree.cc:74-84 (points already three rows high). -/
def octInit (cfg : OctreeConfig) (fuel : Nat) (points : List Pt) : Outcome OctNode :=
  octBuild cfg fuel 0 (CubeBox.ofCenter cfg.center cfg.maxSize) points

/-- A leaf as seen from outside: depth, cube, points. -/
abbrev OctLeaf := Int × CubeBox × List Pt

/-- Number of nodes (termination measure of the breadth-first output). -/
def OctNode.size : OctNode → Nat
  | .leaf .. => 1
  | .node _ _ a b c d e f g h =>
    1 + (a.size + b.size + c.size + d.size + e.size + f.size + g.size + h.size)

/-- octree.cc:86-104 : breadth-first traversal printing every leaf's points. -/
def octOutput : List OctNode → List OctLeaf
  | [] => []
  | .leaf d b ps :: queue => (d, b, ps) :: octOutput queue
  | .node _ _ a b c d e f g h :: queue => octOutput (queue ++ [a, b, c, d, e, f, g, h])
termination_by q => (q.map OctNode.size).sum
decreasing_by all_goals (simp [OctNode.size] <;> omega)

end Verif
