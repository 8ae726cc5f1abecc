import Verif.Model.MapPackage
import Verif.Model.Floats
import Verif.Model.Filters
/-
builder/map_package.cc:51-232 `SaveTrajectoriesAsMapPackage` and tools/join_pieces.cc:34-84 with the number types of
the code: positions and rectangles are `double`, the points of clouds are `float`.

As in Verif/Model/MapPackage.lean, except: every operation rounds, and the array `parts` (line 116) is on the stack,
which holds `stack` pieces.  The description file holds the centres exactly (pugixml writes 17 digits).
`pcl::transformPointCloud` with a `double` matrix that only translates adds in `double` and converts to `float`.
-/
namespace Verif

/-- 88-90, 99-107: the number of pieces in one direction. -/
def pkgStepsF (lo hi half : Rat) : Outcome (Option Nat) :=
  if half = 0 then .ub
  else
    let n := truncInt (toF64 (toF64 (hi - lo) / half))
    if n < -2147483648 ∨ 2147483647 < n then .ub
    else if n < 0 then .ok none
    else if n = 0 then .ok (some 1)
    else .ok (some n.toNat)

/-- 120, one coordinate: the centre of a piece. -/
def pkgCentreF (lo half : Rat) (x : Nat) : Rat := toF64 (lo + toF64 (((x : Rat) + 1) * half))

/-- 121, 123/125: its lower end. -/
def pkgLowF (lo hi half : Rat) (x : Nat) : Rat := pkgClamp (toF64 (pkgCentreF lo half x - half)) lo hi

/-- 122, 124/126: its upper end. -/
def pkgHighF (lo hi half : Rat) (x : Nat) : Rat := pkgClamp (toF64 (pkgCentreF lo half x + half)) lo hi

/-- 191-192: `point.x -= part.center[0]`. -/
def pkgCutF (p c : Rat) : Rat := toF32 (toF64 (p - c))

/-- join_pieces.cc:71-75. -/
def pkgJoinF (q c : Rat) : Rat := toF32 (toF64 (q + c))

/-- 117-141 and 144-204 for one piece. -/
def pkgPieceF (vm : List (Vec3 Rat × List (Vec3 Rat)) → List (Vec3 Rat)) (o : PkgOptions)
    (submaps : List PkgSubmap) (loX hiX loY hiY half : Rat) (x y : Nat) : PkgPiece :=
  let cx := pkgCentreF loX half x
  let cy := pkgCentreF loY half y
  let minX := pkgLowF loX hiX half x
  let maxX := pkgHighF loX hiX half x
  let minY := pkgLowF loY hiY half y
  let maxY := pkgHighF loY hiY half y
  let listed := submaps.filter fun s =>
    insideBox (toF64 (minX - o.border)) (toF64 (maxX + o.border)) (toF64 (minY - o.border))
      (toF64 (maxY + o.border)) s.pos
  let inserted := listed.flatMap (pkgInsert minX maxX minY maxY)
  { ix := x, iy := y, cx := cx, cy := cy, minX := minX, maxX := maxX, minY := minY, maxY := maxY,
    inserted := inserted,
    cloud := ((vm inserted).filter (insideBox minX maxX minY maxY)).map
      fun p => { x := pkgCutF p.x cx, y := pkgCutF p.y cy, z := p.z },
    file := pieceFileName o.filePrefix x y }

/-- 51-232; `none`: returned false. -/
def savePackageF (vm : List (Vec3 Rat × List (Vec3 Rat)) → List (Vec3 Rat)) (emptyOk : Bool) (stack : Nat)
    (o : PkgOptions) (submaps : List PkgSubmap) : Outcome (Option Package) :=
  let loX := toF64 (pkgMin (submaps.map fun s => s.pos.x) - o.border)
  let loY := toF64 (pkgMin (submaps.map fun s => s.pos.y) - o.border)
  let hiX := toF64 (pkgMax (submaps.map fun s => s.pos.x) + o.border)
  let hiY := toF64 (pkgMax (submaps.map fun s => s.pos.y) + o.border)
  let half := toF64 (o.width * (1 / 2))
  do
    let nx ← pkgStepsF loX hiX half
    let ny ← pkgStepsF loY hiY half
    match nx, ny with
    | some nx, some ny =>
      if stack < nx * ny then .ub
      else do
        let pieces := (List.range nx).flatMap fun x =>
          (List.range ny).map fun y => pkgPieceF vm o submaps loX hiX loY hiY half x y
        Outcome.check (emptyOk = true ∨ ∀ p ∈ pieces, p.cloud ≠ [])
        return some { pieces := pieces, description := pieces.map fun p => (p.cx, p.cy, p.file) }
    | _, _ => return none

/-- join_pieces.cc:59-77 : every listed piece that can be read, moved by its centre. -/
def joinPiecesF (pkg : Package) : List (Vec3 Rat) :=
  pkg.description.flatMap fun (x, y, file) =>
    match pkg.read file with
    | some c => c.map fun p => { x := pkgJoinF p.x x, y := pkgJoinF p.y y, z := p.z }
    | none => []

end Verif
