import Verif.Model.Outcome
import Verif.Model.Geom
/-
common/math.cc : `VoxelCastingBresenham` (35-95) and `VoxelCastingDDA` (99-174).

Simplifications: points and the step size are exact rationals instead of `float`; NaN
coordinates (for which `lround` is unspecified; the `isnan` tests at 46 and 55 look at `int`s
and are never true) are not modelled; `int` is unbounded, i.e. coordinates whose differences
or doubled differences leave the `int` range are outside the model.
-/
namespace Verif

/-- math.cc:42-44, 52-54, 107-109, 116-118 : `lround(floor(p / step_size))` per axis.
(In C++ a zero `step_size` divides by zero; callers use positive sizes.) -/
def voxelOf (p : Vec3 Rat) (step : Rat) : Voxel :=
  { x := (p.x / step).floor, y := (p.y / step).floor, z := (p.z / step).floor }

/-! ### Bresenham -/

/-- math.cc:77-80 (and 81-88 for the other axes): `err -= d; if (err < 0) {err += dm; pos += s;}`.
The pair is (error accumulator, coordinate). -/
def bresAxis (d dm s : Int) (a : Int × Int) : Int × Int :=
  let e := a.1 - d
  if e < 0 then (e + dm, a.2 + s) else (e, a.2)

/-- math.cc:72-89 : the endless loop, counted down by `i`; returns the visited voxels and the
final coordinates. -/
def bresLoop (d : Voxel) (dm : Int) (s : Voxel) :
    Nat → Int × Int → Int × Int → Int × Int → List Voxel × Voxel
  | 0, ax, ay, az => ([⟨ax.2, ay.2, az.2⟩], ⟨ax.2, ay.2, az.2⟩)
  | i + 1, ax, ay, az =>
    let r := bresLoop d dm s i (bresAxis d.x dm s.x ax) (bresAxis d.y dm s.y ay)
      (bresAxis d.z dm s.z az)
    (⟨ax.2, ay.2, az.2⟩ :: r.1, r.2)

/-- math.cc:59-94 on voxel coordinates: set-up, loop and the three final `CHECK_EQ`s. -/
def bresenham (v0 v1 : Voxel) : Outcome (List Voxel) :=
  let d : Voxel := ⟨(v1.x - v0.x).natAbs, (v1.y - v0.y).natAbs, (v1.z - v0.z).natAbs⟩
  let s : Voxel := ⟨if v0.x < v1.x then 1 else -1, if v0.y < v1.y then 1 else -1,
    if v0.z < v1.z then 1 else -1⟩
  let dm := max (max d.x d.y) d.z
  let h := dm / 2
  let r := bresLoop d dm s dm.toNat (h, v0.x) (h, v0.y) (h, v0.z)
  do Outcome.check (r.2.x = v1.x)
     Outcome.check (r.2.y = v1.y)
     Outcome.check (r.2.z = v1.z)
     return r.1

/-- math.cc:35-95. -/
def voxelCastingBresenham (ray_start ray_end : Vec3 Rat) (step : Rat) : Outcome (List Voxel) :=
  bresenham (voxelOf ray_start step) (voxelOf ray_end step)

/-! ### DDA -/

/-- math.cc:144-163 per axis: `error += delta; if ((error << 1) >= max_delta) {cur += step;
error -= max_delta;}`.  The pair is (error, coordinate). -/
def ddaAxis (d dm s : Int) (a : Int × Int) : Int × Int :=
  let e := a.1 + d
  if 2 * e ≥ dm then (e - dm, a.2 + s) else (e, a.2)

/-- math.cc:140-165 : the loop pushes the current voxel, then updates; the last voxel is pushed
after the loop. -/
def ddaLoop (d : Voxel) (dm : Int) (s : Voxel) :
    Nat → Int × Int → Int × Int → Int × Int → List Voxel × Voxel
  | 0, ax, ay, az => ([⟨ax.2, ay.2, az.2⟩], ⟨ax.2, ay.2, az.2⟩)
  | i + 1, ax, ay, az =>
    let r := ddaLoop d dm s i (ddaAxis d.x dm s.x ax) (ddaAxis d.y dm s.y ay)
      (ddaAxis d.z dm s.z az)
    (⟨ax.2, ay.2, az.2⟩ :: r.1, r.2)

/-- math.cc:124-173 on voxel coordinates. -/
def dda (v0 v1 : Voxel) : Outcome (List Voxel) :=
  let dl : Voxel := ⟨v1.x - v0.x, v1.y - v0.y, v1.z - v0.z⟩
  let s : Voxel := ⟨if dl.x ≥ 0 then 1 else -1, if dl.y ≥ 0 then 1 else -1,
    if dl.z ≥ 0 then 1 else -1⟩
  let d : Voxel := ⟨if dl.x < 0 then -dl.x else dl.x, if dl.y < 0 then -dl.y else dl.y,
    if dl.z < 0 then -dl.z else dl.z⟩
  let dm := if d.x > d.y then d.x else d.y
  let dm := if dm > d.z then dm else d.z
  let r := ddaLoop d dm s dm.toNat (0, v0.x) (0, v0.y) (0, v0.z)
  do Outcome.check (r.2 = v1)
     return r.1

/-- math.cc:99-174. -/
def voxelCastingDDA (ray_start ray_end : Vec3 Rat) (step : Rat) : Outcome (List Voxel) :=
  dda (voxelOf ray_start step) (voxelOf ray_end step)

end Verif
