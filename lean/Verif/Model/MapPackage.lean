import Verif.Model.Outcome
import Verif.Model.Geom
import Verif.Model.Names
/-
builder/map_package.cc:51-232 `SaveTrajectoriesAsMapPackage` and tools/join_pieces.cc:34-84.

Coordinates are exact rationals.  A submap is its position and its cloud in global coordinates (the
transform is C12's).  The voxel map a piece is built from is a parameter `vm`: from the clouds
inserted (origin, points), in order, to the points of its output (C25).  Writing and reading a
`.pcd` file is taken to preserve the points; whether an empty cloud can be written depends on the
PCL version and is the parameter `emptyOk` (if not, PCL throws and the program ends).
-/
namespace Verif

/-- map_package.h:36-42. -/
structure PkgOptions where
  border : Rat
  width : Rat
  filePrefix : List Char

structure PkgSubmap where
  pos : Vec3 Rat
  cloud : List (Vec3 Rat)

structure PkgPiece where
  ix : Nat
  iy : Nat
  cx : Rat
  cy : Rat
  minX : Rat
  maxX : Rat
  minY : Rat
  maxY : Rat
  inserted : List (Vec3 Rat × List (Vec3 Rat))
  cloud : List (Vec3 Rat)
  file : List Char

/-- The files written and the description file (`x`, `y`, `file`). -/
structure Package where
  pieces : List PkgPiece
  description : List (Rat × Rat × List Char)

/-- 60-80, one coordinate: lower end. -/
def pkgMin (l : List Rat) : Rat := l.foldl (fun m v => if v < m then v else m) (10 ^ 50)

/-- 60-80, one coordinate: upper end. -/
def pkgMax (l : List Rat) : Rat := l.foldl (fun m v => if v > m then v else m) (-(10 ^ 50))

/-- 89-90, 99-107 : the number of pieces in one direction; `none` if negative.  A division by zero or
a value beyond `int` makes the conversion undefined. -/
def pkgSteps (lo hi half : Rat) : Outcome (Option Nat) :=
  if half = 0 then .ub
  else
    let q := (hi - lo) / half
    let n : Int := if 0 ≤ q then ⌊q⌋ else ⌈q⌉
    if n < -2147483648 ∨ 2147483647 < n then .ub
    else if n < 0 then .ok none
    else if n = 0 then .ok (some 1)
    else .ok (some n.toNat)

/-- common/math.h:66-75 `Clamp`. -/
def pkgClamp (v lo hi : Rat) : Rat := if v > hi then hi else if v < lo then lo else v

/-- 109-114 `inside_bbox`. -/
def insideBox (x0 x1 y0 y1 : Rat) (p : Vec3 Rat) : Bool :=
  decide (x0 ≤ p.x) && decide (p.x ≤ x1) && decide (y0 ≤ p.y) && decide (p.y ≤ y1)

/-- 151-179, what one listed submap contributes to the voxel map of a piece. -/
def pkgInsert (x0 x1 y0 y1 : Rat) (s : PkgSubmap) : List (Vec3 Rat × List (Vec3 Rat)) :=
  if insideBox x0 x1 y0 y1 s.pos then [(s.pos, s.cloud)]
  else
    let c := s.cloud.filter (insideBox x0 x1 y0 y1)
    if c.isEmpty then [] else [(s.pos, c)]

/-- 117-141 and 144-204 for one piece. -/
def pkgPiece (vm : List (Vec3 Rat × List (Vec3 Rat)) → List (Vec3 Rat)) (o : PkgOptions)
    (submaps : List PkgSubmap) (loX hiX loY hiY half : Rat) (x y : Nat) : PkgPiece :=
  let cx := loX + ((x : Rat) + 1) * half
  let cy := loY + ((y : Rat) + 1) * half
  let minX := pkgClamp (cx - half) loX hiX
  let maxX := pkgClamp (cx + half) loX hiX
  let minY := pkgClamp (cy - half) loY hiY
  let maxY := pkgClamp (cy + half) loY hiY
  let listed := submaps.filter fun s =>
    insideBox (minX - o.border) (maxX + o.border) (minY - o.border) (maxY + o.border) s.pos
  let inserted := listed.flatMap (pkgInsert minX maxX minY maxY)
  { ix := x, iy := y, cx := cx, cy := cy, minX := minX, maxX := maxX, minY := minY, maxY := maxY,
    inserted := inserted,
    cloud := ((vm inserted).filter (insideBox minX maxX minY maxY)).map
      fun p => { x := p.x - cx, y := p.y - cy, z := p.z },
    file := pieceFileName o.filePrefix x y }

/-- 51-232; `none`: returned false. -/
def savePackage (vm : List (Vec3 Rat × List (Vec3 Rat)) → List (Vec3 Rat)) (emptyOk : Bool)
    (o : PkgOptions) (submaps : List PkgSubmap) : Outcome (Option Package) :=
  let loX := pkgMin (submaps.map fun s => s.pos.x) - o.border
  let loY := pkgMin (submaps.map fun s => s.pos.y) - o.border
  let hiX := pkgMax (submaps.map fun s => s.pos.x) + o.border
  let hiY := pkgMax (submaps.map fun s => s.pos.y) + o.border
  let half := o.width * (1 / 2)
  do
    let nx ← pkgSteps loX hiX half
    let ny ← pkgSteps loY hiY half
    match nx, ny with
    | some nx, some ny =>
      let pieces := (List.range nx).flatMap fun x =>
        (List.range ny).map fun y => pkgPiece vm o submaps loX hiX loY hiY half x y
      Outcome.check (emptyOk = true ∨ ∀ p ∈ pieces, p.cloud ≠ [])
      return some { pieces := pieces, description := pieces.map fun p => (p.cx, p.cy, p.file) }
    | _, _ => return none

/-- The cloud stored under a file name (the last one written under it). -/
def Package.read (pkg : Package) (file : List Char) : Option (List (Vec3 Rat)) :=
  (pkg.pieces.reverse.find? fun p => p.file = file).map (·.cloud)

/-- join_pieces.cc:59-77 : every listed piece that can be read, moved by its centre. -/
def joinPieces (pkg : Package) : List (Vec3 Rat) :=
  pkg.description.flatMap fun (x, y, file) =>
    match pkg.read file with
    | some c => c.map fun p => { x := p.x + x, y := p.y + y, z := p.z }
    | none => []

end Verif
