import Verif.Model.Floats
import Verif.Model.Mrvm
/-
common/math.cc : the two voxel casters with the types of the code, and the static map's insertion
(builder/multi_resolution_voxel_map.cc) on top of the one it uses.

`Model/VoxelCasting` has exact points and unbounded integers; here the division is a `float` division
and every `int` operation is checked.  Left out: NaN and infinite coordinates, for which `lround` is
unspecified (the tests `std::isnan(x0)` at math.cc:45 and 53 look at `int`s and are never true).
-/
namespace Verif

/-- The result of an `int` operation: outside the range it has no meaning. -/
def int32 (z : Int) : Outcome Int := if -2147483648 ≤ z ∧ z ≤ 2147483647 then .ok z else .ub

/-- Conversion of a `long` to an `int` (gcc and clang: modulo 2^32). -/
def wrap32 (z : Int) : Int := (z + 2147483648) % 4294967296 - 2147483648

/-- math.cc:42-44, 50-52 : `lround(floor(p / step_size))` stored in an `int`.  The division is a
`float` division; `lround` returns a `long` and has no specified result outside its range. -/
def voxelIdxF (p step : ℚ) : Outcome Int :=
  let q := ⌊toF32 (p / step)⌋
  if -9223372036854775808 ≤ q ∧ q ≤ 9223372036854775807 then .ok (wrap32 q) else .ub

/-- math.cc:42-44 for the three axes. -/
def voxelOfF (p : Vec3 Rat) (step : ℚ) : Outcome Voxel := do
  let x ← voxelIdxF p.x step
  let y ← voxelIdxF p.y step
  let z ← voxelIdxF p.z step
  return ⟨x, y, z⟩

/-- math.cc:61-63 : `std::abs(x1 - x0)`. -/
def absDiff32 (a b : Int) : Outcome Int := do
  let d ← int32 (b - a)
  int32 d.natAbs

/-- math.cc:74-78 (79-83, 84-88). -/
def bresAxis32 (d dm s : Int) (a : Int × Int) : Outcome (Int × Int) := do
  let e ← int32 (a.1 - d)
  if e < 0 then do
    let e' ← int32 (e + dm)
    let p ← int32 (a.2 + s)
    return (e', p)
  else return (e, a.2)

/-- math.cc:69-89. -/
def bresLoop32 (d : Voxel) (dm : Int) (s : Voxel) :
    Nat → Int × Int → Int × Int → Int × Int → Outcome (List Voxel × Voxel)
  | 0, ax, ay, az => .ok ([⟨ax.2, ay.2, az.2⟩], ⟨ax.2, ay.2, az.2⟩)
  | i + 1, ax, ay, az => do
    let ax' ← bresAxis32 d.x dm s.x ax
    let ay' ← bresAxis32 d.y dm s.y ay
    let az' ← bresAxis32 d.z dm s.z az
    let r ← bresLoop32 d dm s i ax' ay' az'
    return (⟨ax.2, ay.2, az.2⟩ :: r.1, r.2)

/-- math.cc:57-94 : set-up, `reserve(dm + 1)`, loop and the three final checks. -/
def bresenham32 (v0 v1 : Voxel) : Outcome (List Voxel) := do
  let dx ← absDiff32 v0.x v1.x
  let dy ← absDiff32 v0.y v1.y
  let dz ← absDiff32 v0.z v1.z
  let s : Voxel := ⟨if v0.x < v1.x then 1 else -1, if v0.y < v1.y then 1 else -1,
    if v0.z < v1.z then 1 else -1⟩
  let dm := max (max dx dy) dz
  let h := dm / 2
  let _ ← int32 (dm + 1)
  let r ← bresLoop32 ⟨dx, dy, dz⟩ dm s dm.toNat (h, v0.x) (h, v0.y) (h, v0.z)
  Outcome.check (r.2.x = v1.x)
  Outcome.check (r.2.y = v1.y)
  Outcome.check (r.2.z = v1.z)
  return r.1

/-- math.cc:35-95 `VoxelCastingBresenham`. -/
def voxelCastingF (ray_start ray_end : Vec3 Rat) (step : ℚ) : Outcome (List Voxel) := do
  let a ← voxelOfF ray_start step
  let b ← voxelOfF ray_end step
  bresenham32 a b

/-! ### the other caster -/

/-- math.cc:150 : `error << 1`.  In C++14 a negative number must not be shifted to the left, and the
doubled value must fit the unsigned type. -/
def shl1 (e : Int) : Outcome Int :=
  if e < 0 then .ub else if 2 * e ≤ 2147483647 then .ok (2 * e) else
  if 2 * e ≤ 4294967295 then .ok (2 * e - 4294967296) else .ub

/-- math.cc:144-153 (154-159, 161-164). -/
def ddaAxis32 (d dm s : Int) (a : Int × Int) : Outcome (Int × Int) := do
  let e ← int32 (a.1 + d)
  let e2 ← shl1 e
  if e2 ≥ dm then do
    let p ← int32 (a.2 + s)
    let e' ← int32 (e - dm)
    return (e', p)
  else return (e, a.2)

/-- math.cc:140-166. -/
def ddaLoop32 (d : Voxel) (dm : Int) (s : Voxel) :
    Nat → Int × Int → Int × Int → Int × Int → Outcome (List Voxel × Voxel)
  | 0, ax, ay, az => .ok ([⟨ax.2, ay.2, az.2⟩], ⟨ax.2, ay.2, az.2⟩)
  | i + 1, ax, ay, az => do
    let ax' ← ddaAxis32 d.x dm s.x ax
    let ay' ← ddaAxis32 d.y dm s.y ay
    let az' ← ddaAxis32 d.z dm s.z az
    let r ← ddaLoop32 d dm s i ax' ay' az'
    return (⟨ax.2, ay.2, az.2⟩ :: r.1, r.2)

/-- math.cc:125-173 on voxel coordinates. -/
def dda32 (v0 v1 : Voxel) : Outcome (List Voxel) := do
  let dx ← absDiff32 v0.x v1.x
  let dy ← absDiff32 v0.y v1.y
  let dz ← absDiff32 v0.z v1.z
  let s : Voxel := ⟨if v0.x ≤ v1.x then 1 else -1, if v0.y ≤ v1.y then 1 else -1,
    if v0.z ≤ v1.z then 1 else -1⟩
  let dm := max (max dx dy) dz
  let _ ← int32 (dm + 1)
  let r ← ddaLoop32 ⟨dx, dy, dz⟩ dm s dm.toNat (0, v0.x) (0, v0.y) (0, v0.z)
  Outcome.check (r.2 = v1)
  return r.1

/-! ### the static map -/

/-- common/point_utils.h:56-64 `FATAL_CHECK_POINT` on finite coordinates (the rounding of the length
is left out). -/
def shortPoint (p : InnerPoint Rat) : Prop := p.x * p.x + p.y * p.y + p.z * p.z < 100000000 ^ 2

instance (p : InnerPoint Rat) : Decidable (shortPoint p) := by unfold shortPoint; infer_instance

/-- multi_resolution_voxel_map.cc:100-101. -/
def roomCheck (cfg : MrvmCfg) (c : Cell) (p : InnerPoint Rat) : Outcome Unit :=
  if (c.points.length : Int) < cfg.maxPoints then Outcome.check (shortPoint p) else .ok ()

/-- multi_resolution_voxel_map.cc:79-117 : one point.  The length of a point is looked at after its
ray has been cast, and only if its voxel has room (100-101). -/
def insertPointF (cfg : MrvmCfg) (origin : Vec3 Rat) (s : VMap × List Voxel) (p : InnerPoint Rat) :
    Outcome (VMap × List Voxel) := do
  let path ← voxelCastingF origin ⟨p.x, p.y, p.z⟩ cfg.resolution
  match path.getLast? with
  | none => return s
  | some e =>
    let c := (s.1 e).getD {}
    roomCheck cfg c p
    let m := s.1.set e (hitCell cfg p c)
    return (path.dropLast.foldl (missAt cfg) m, s.2 ++ [e])

/-- multi_resolution_voxel_map.cc:78-118. -/
def insertPointsF (cfg : MrvmCfg) (origin : Vec3 Rat) :
    VMap × List Voxel → List (InnerPoint Rat) → Outcome (VMap × List Voxel)
  | s, [] => .ok s
  | s, p :: ps => do
    let s ← insertPointF cfg origin s p
    insertPointsF cfg origin s ps

/-- multi_resolution_voxel_map.cc:54-123 `InsertPointCloud`; the offset of the origin is added in
`float` (62). -/
def insertCloudF (cfg : MrvmCfg) (m : VMap) (cloud : Option (List (InnerPoint Rat))) (origin : Vec3 Rat) :
    Outcome VMap :=
  match cloud with
  | none => .ok m
  | some ps =>
    if ps.isEmpty then .ok m
    else do
      let r ← insertPointsF cfg { origin with z := toF32 (origin.z + cfg.zOffset) } (m, []) ps
      return releaseAll r.1 r.2

/-- The map after a sequence of insertions. -/
def insertCloudsF (cfg : MrvmCfg) : VMap → List (Option (List (InnerPoint Rat)) × Vec3 Rat) → Outcome VMap
  | m, [] => .ok m
  | m, c :: cs => do
    let m ← insertCloudF cfg m c.1 c.2
    insertCloudsF cfg m cs

end Verif
