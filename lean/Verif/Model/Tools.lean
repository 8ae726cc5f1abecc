import Verif.Model.PathExport
import Verif.Model.AverageF
/-
The command line tools tools/path_statistic.cc, tools/pcd_sampler.cc and tools/pcd_to_las.cc.

Outside the model: reading and writing PCD and LAS files, PCL's random sampler (a parameter, see `Sampler`)
and libLAS (`SetX` rounds to the nearest multiple of the scale, halves away from zero).
-/
namespace Verif

/-! ### path_statistic -/

/-- path_statistic.cc:48-50. `std::to_string` of a `float` prints the value with six decimals. -/
def statLine (p : PathPoint) : List Char :=
  fixed6 p.p.x ++ ',' :: (fixed6 p.p.y ++ ',' :: (fixed6 p.p.z ++ ',' :: (fixed6 p.intensity ++ ['\n'])))

/-- path_statistic.cc:37-59 : exit code and contents of path.csv. `cloud` is `none` if the file cannot be
loaded; `opens` tells whether path.csv can be written. -/
def pathStatistic (cloud : Option (List PathPoint)) (opens : Bool) : Int × Option (List Char) :=
  match cloud with
  | none => (-1, none)
  | some ps => if opens then (0, some (ps.flatMap statLine)) else (0, none)

/-! ### pcd_sampler -/

/-- pcd_sampler.cc:50 : `size_t * float` is a `float`; converting to `int` is undefined out of range. -/
def sampleInt (n : Nat) (ratio : ℚ) : Outcome Int := int32 (truncInt (toF32 (toF32 n * ratio)))

/-- pcd_sampler.cc:50 : `setSample` takes an `unsigned int`. -/
def sampleCount (n : Nat) (ratio : ℚ) : Outcome Nat := do
  let k ← sampleInt n ratio
  return (k % 4294967296).toNat

/-- PCL's `RandomSample::applyFilter`: all points if as many are asked for, otherwise the points at the
drawn positions, which are increasing. -/
structure Sampler (α : Type) where
  draw : Nat → List α → List α
  length : ∀ k l, k < l.length → (draw k l).length = k
  sub : ∀ k l, (draw k l).Sublist l

/-- pcd_sampler.cc:40-56 : exit code and contents of sampled.pcd. -/
def pcdSampler {α : Type} (S : Sampler α) (ratio : ℚ) (cloud : Option (List α)) :
    Outcome (Int × Option (List α)) :=
  match cloud with
  | none => .ok (-1, none)
  | some ps => do
    let k ← sampleCount ps.length ratio
    return (0, some (if ps.length ≤ k then ps else S.draw k ps))

/-! ### pcd_to_las -/

/-- The datatypes told apart by pcd_to_las.cc:72-84. -/
inductive FieldType | float32 | float64 | other
  deriving DecidableEq

structure LasField where
  name : List Char
  datatype : FieldType
  offset : Nat

/-- A `pcl::PCLPointCloud2`: the data is given by its length and by the numbers found at each position. -/
structure RawCloud where
  height : Nat
  width : Nat
  fields : List LasField
  pointStep : Nat
  dataLength : Nat
  float32At : Nat → ℚ
  float64At : Nat → ℚ

/-- pcd_to_las.cc:69-86 : `memcpy` past the end of the data is undefined. -/
def fieldValue (c : RawCloud) (f : LasField) (start : Nat) : Outcome ℚ :=
  match f.datatype with
  | .float32 => if start + f.offset + 4 ≤ c.dataLength then .ok (c.float32At (start + f.offset)) else .ub
  | .float64 => if start + f.offset + 8 ≤ c.dataLength then .ok (c.float64At (start + f.offset)) else .ub
  | .other => .ok 0

/-- libLAS `Point::SetX` with offset 0 and scale 0.01. -/
def lasRaw (v : ℚ) : Outcome Int := int32 (lround (toF64 (v / toF64 (1 / 100))))

/-- pcd_to_las.cc:92-102 : the fields one after the other; a point starts at zero. -/
def lasFields (c : RawCloud) (start : Nat) : List LasField → Vec3 Int → Outcome (Vec3 Int)
  | [], p => .ok p
  | f :: fs, p =>
    if f.name = ['x'] then do
      let v ← fieldValue c f start
      let r ← lasRaw v
      lasFields c start fs { p with x := r }
    else if f.name = ['y'] then do
      let v ← fieldValue c f start
      let r ← lasRaw v
      lasFields c start fs { p with y := r }
    else if f.name = ['z'] then do
      let v ← fieldValue c f start
      let r ← lasRaw v
      lasFields c start fs { p with z := r }
    else lasFields c start fs p

/-- pcd_to_las.cc:90-105. -/
def lasLoop (c : RawCloud) : Nat → Nat → Outcome (List (Vec3 Int))
  | 0, _ => .ok []
  | n + 1, start => do
    let p ← lasFields c start c.fields ⟨0, 0, 0⟩
    let ps ← lasLoop c n (start + c.pointStep)
    return p :: ps

/-- pcd_to_las.cc:88 : the product of two `uint32_t`, converted to `int32_t`. -/
def lasCount (c : RawCloud) : Int := wrap32 (c.height * c.width % 4294967296)

/-- The cloud left by a failed load (pcd_to_las.cc:47-48: the result of `loadPCDFile` is not looked at). -/
def emptyRaw : RawCloud := ⟨0, 0, [], 0, 0, fun _ => 0, fun _ => 0⟩

/-- pcd_to_las.cc:47-107 : exit code and the points of the LAS file, in hundredths. -/
def pcdToLas (cloud : Option RawCloud) (opens : Bool) : Outcome (Int × Option (List (Vec3 Int))) :=
  if opens then do
    let ps ← lasLoop (cloud.getD emptyRaw) (lasCount (cloud.getD emptyRaw)).toNat 0
    return (0, some ps)
  else .ok (-1, none)

end Verif
