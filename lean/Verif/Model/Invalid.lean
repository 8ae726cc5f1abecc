import Verif.Model.PlaceFloat
import Verif.Model.Filters
import Verif.Model.Node
/-! Coordinates that are not numbers: `float` values with infinities and not-a-number, the filters, the
transformation of points and the checks of a submap on them. -/
namespace Verif

/-- A `float`: not-a-number, an infinity (`true`: negative) or a number. The sign of zero is left out
(no operation here looks at it), and so is the lower bound of the exponent. -/
inductive Fl where
  | nan
  | inf (neg : Bool)
  | num (q : ℚ)
deriving DecidableEq

/-- The result of an operation: rounded, infinite from 2^128 on. -/
def Fl.ofRat (q : ℚ) : Fl :=
  if 2 ^ 128 ≤ |toF32 q| then .inf (decide (q < 0)) else .num (toF32 q)

/-- Addition of floats (IEEE 754). -/
def Fl.add : Fl → Fl → Fl
  | .nan, _ => .nan
  | _, .nan => .nan
  | .inf a, .inf b => if a = b then .inf a else .nan
  | .inf a, .num _ => .inf a
  | .num _, .inf b => .inf b
  | .num a, .num b => .ofRat (a + b)

/-- Multiplication of floats. -/
def Fl.mul : Fl → Fl → Fl
  | .nan, _ => .nan
  | _, .nan => .nan
  | .inf a, .inf b => .inf (a != b)
  | .inf a, .num q => if q = 0 then .nan else .inf (a != decide (q < 0))
  | .num q, .inf b => if q = 0 then .nan else .inf (b != decide (q < 0))
  | .num a, .num b => .ofRat (a * b)

/-- `c + a * b`, in one rounding if the compiler contracts it (`fma`). -/
def Fl.madd (fma : Bool) (c a b : Fl) : Fl :=
  match fma, c, a, b with
  | true, .num c, .num a, .num b => .ofRat (c + a * b)
  | _, c, a, b => c.add (a.mul b)

/-- The square root of a number, correctly rounded to `p` bits: `u` is the step of the result. -/
def sqrtF (p : ℕ) (s : ℚ) : ℚ :=
  if s ≤ 0 then 0
  else
    let u : ℚ := 2 ^ (Int.log 2 s / 2 - p + 1)
    let n : ℕ := Nat.sqrt ⌊s / u ^ 2⌋.toNat
    if s > ((n + 1 / 2) * u) ^ 2 then (n + 1) * u else n * u

/-- `std::sqrt(float)`. -/
def Fl.sqrt : Fl → Fl
  | .nan => .nan
  | .inf neg => if neg then .nan else .inf false
  | .num q => if q < 0 then .nan else .num (sqrtF 24 q)

/-- `a <= b`: false if one of them is not a number. -/
def Fl.le : Fl → Fl → Bool
  | .nan, _ => false
  | _, .nan => false
  | .inf true, _ => true
  | _, .inf false => true
  | .num a, .num b => decide (a ≤ b)
  | .num _, .inf true => false
  | .inf false, .num _ => false
  | .inf false, .inf true => false

/-- `a < b`. -/
def Fl.lt : Fl → Fl → Bool
  | .nan, _ => false
  | _, .nan => false
  | .num a, .num b => decide (a < b)
  | .inf a, .inf b => a && !b
  | .inf a, .num _ => a
  | .num _, .inf b => !b

/-- A point (builder/data/cloud_types.h `InnerPointType`; intensity and fraction left out). -/
structure FlPoint where
  x : Fl
  y : Fl
  z : Fl
deriving DecidableEq

/-- `x * x + y * y + z * z` in `float`. -/
def sumSq (fma : Bool) (p : FlPoint) : Fl :=
  .madd fma (.madd fma (p.x.mul p.x) p.y p.y) p.z p.z

/-- pre_processors/filter_range.cc:58-65: a point is kept if its distance is in the limits. -/
def rangeKeepFl (fma : Bool) (mn mx : ℚ) (p : FlPoint) : Bool :=
  let range := (sumSq fma p).sqrt
  Fl.le (.num mn) range && Fl.le range (.num mx)

/-- pre_processors/filter_range.cc:44-86 (`Range::Filter`). `stack` is the number of bytes left on the
stack: the flags are an array of one byte per point there, and more is undefined behaviour. -/
def rangeFl (fma : Bool) (stack : ℕ) (mn mx : ℚ) (ps : List FlPoint) : Outcome (List FlPoint) :=
  if ps.length > stack then .ub else .ok (ps.filter (rangeKeepFl fma mn mx))

/-- pre_processors/filter_axis_range.cc:70-90: a point is dropped if a comparison says so. -/
def axisKeepFl (mn mx : ℚ) (axis : Int) (p : FlPoint) : Bool :=
  let out := fun v : Fl => v.lt (.num mn) || Fl.lt (.num mx) v
  if axis = 0 then !out p.x else if axis = 1 then !out p.y else if axis = 2 then !out p.z else true

/-- common/bounding_box.cc:117-121 (`BoundingBox::ContainsPoint`); the doubles hold the same values. -/
def boxHasFl (mn mx : Vec3 ℚ) (p : FlPoint) : Bool :=
  (Fl.le (.num mn.x) p.x && Fl.le p.x (.num mx.x)) && (Fl.le (.num mn.y) p.y && Fl.le p.y (.num mx.y)) &&
    (Fl.le (.num mn.z) p.z && Fl.le p.z (.num mx.z))

/-- The filters of a configuration that look at single points: range, axis range, box removal and
random sampling (`draws` are the random numbers). -/
inductive FlFilter where
  | range (mn mx : ℚ)
  | axis (mn mx : ℚ) (axis : Int)
  | box (mn mx : Vec3 ℚ)
  | random (rate : ℚ) (draws : ℕ → ℚ)

/-- pre_processors/filter_random_sample.cc:63-71. -/
def randomFl (rate : ℚ) (draws : ℕ → ℚ) (ps : List FlPoint) : List FlPoint :=
  if rate > 999 / 1000 then ps
  else (ps.zipIdx.filter fun q => decide (draws q.2 ≤ rate)).map Prod.fst

/-- One filter on the points of a cloud. -/
def FlFilter.run (fma : Bool) (stack : ℕ) (ps : List FlPoint) : FlFilter → Outcome (List FlPoint)
  | .range mn mx => rangeFl fma stack mn mx ps
  | .axis mn mx a => .ok (ps.filter (axisKeepFl mn mx a))
  | .box mn mx => .ok (ps.filter fun p => !boxHasFl mn mx p)
  | .random rate draws => .ok (randomFl rate draws ps)

/-- pre_processors/filter_factory.cc (`Factory::Filter`): one after the other. -/
def chainFl (fma : Bool) (stack : ℕ) : List FlFilter → List FlPoint → Outcome (List FlPoint)
  | [], ps => .ok ps
  | f :: fs, ps => do
    let ps ← f.run fma stack ps
    chainFl fma stack fs ps

/-- `static_cast<int>(float)`: undefined for what is not a number and for what does not fit. -/
def castInt : Fl → Outcome Int
  | .num q => if -2147483648 ≤ truncInt q ∧ truncInt q ≤ 2147483647 then .ok (truncInt q) else .ub
  | _ => .ub

/-- Division by a positive number. -/
def Fl.divBy (a : Fl) (d : ℚ) : Fl :=
  match a with
  | .num q => .ofRat (q / d)
  | b => b

/-- pre_processors/filter_ground_removal.cc:58-61: the voxel of a point. -/
def groundIndexFl (leaf : ℚ) (p : FlPoint) : Outcome (Int × Int × Int) := do
  let x ← castInt (p.x.divBy leaf)
  let y ← castInt (p.y.divBy leaf)
  let z ← castInt (p.z.divBy leaf)
  return (x, y, z)

/-- pre_processors/filter_ground_removal.cc:47-63 (`GroundRemoval::SetInputCloud`): the voxels of all
points. -/
def groundIndicesFl (leaf : ℚ) : List FlPoint → Outcome (List (Int × Int × Int))
  | [] => .ok []
  | p :: ps => do
    let v ← groundIndexFl leaf p
    let vs ← groundIndicesFl leaf ps
    return v :: vs

/-- One row of builder/data/cloud_types.cc:167-179 (`TransformPoint`), as in `rowF`. -/
def rowFl (fma : Bool) (r0 r1 r2 r3 : ℚ) (p : FlPoint) : Fl :=
  .madd fma (.madd fma (.madd fma ((Fl.ofRat r0).mul p.x) (.ofRat r1) p.y) (.ofRat r2) p.z) (.ofRat r3) (.num 1)

/-- A point moved by a pose. -/
def moveFl (fma : Bool) (T : Mat4 ℚ) (p : FlPoint) : FlPoint :=
  { x := rowFl fma (T 0 0) (T 0 1) (T 0 2) (T 0 3) p
    y := rowFl fma (T 1 0) (T 1 1) (T 1 2) (T 1 3) p
    z := rowFl fma (T 2 0) (T 2 1) (T 2 2) (T 2 3) p }

/-- `std::isfinite`. -/
def Fl.isNum : Fl → Bool
  | .num _ => true
  | _ => false

/-- All coordinates are finite (what `pcl::removeNaNFromPointCloud` looks at). -/
def FlPoint.isNum (p : FlPoint) : Bool := p.x.isNum && p.y.isNum && p.z.isNum

/-- common/point_utils.h:56-64 (`FATAL_CHECK_POINT`): every coordinate and the distance are finite and
the distance is below 1e8. -/
def checkPointFl (fma : Bool) (p : FlPoint) : Outcome Unit := do
  Outcome.check (p.x.isNum = true)
  Outcome.check (p.y.isNum = true)
  Outcome.check (p.z.isNum = true)
  let length := (sumSq fma p).sqrt
  Outcome.check (length.isNum = true)
  Outcome.check (length.lt (.num 100000000) = true)

/-- common/point_utils.h:66-71 (`FATAL_CHECK_CLOUD`). -/
def checkCloudFl (fma : Bool) : List FlPoint → Outcome Unit
  | [] => .ok ()
  | p :: ps => do
    checkPointFl fma p
    checkCloudFl fma ps

/-- Only if the option `enable_check` is set. -/
def checkIfFl (check fma : Bool) (ps : List FlPoint) : Outcome Unit := if check then checkCloudFl fma ps else .ok ()

/-- builder/submap.cc:113-126: the frames, each with its pose in the submap, are added up; the cloud is
checked before each frame is added. -/
def addFrames (check fma : Bool) : List (Mat4 ℚ × List FlPoint) → List FlPoint → Outcome (List FlPoint)
  | [], acc => .ok acc
  | (T, ps) :: fs, acc => do
    checkIfFl check fma acc
    addFrames check fma fs (acc ++ ps.map (moveFl fma T))

/-- builder/submap.cc:97-132 (`Submap::InsertFrame`, the frame that fills the submap, without the voxel
map): the points of the submap. -/
def fillSubmap (check fma : Bool) (fs : List (Mat4 ℚ × List FlPoint)) : Outcome (List FlPoint) := do
  let ps ← addFrames check fma fs []
  checkIfFl check fma ps
  return ps

end Verif
