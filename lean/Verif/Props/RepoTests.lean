import Verif.Model.OctreeF
import Verif.Model.Seconds
import Verif.Model.FilterConfig
import Verif.Model.AverageF
import Verif.Model.PlaceFloat
import Verif.Model.Invalid
import Mathlib.Data.Fin.VecNotation
import Mathlib.LinearAlgebra.Matrix.Notation
/-! The unit tests of the repository, run on the model: every expectation of a test that does not use
random data is checked here on the definitions the theorems are about. They are no proofs of the
properties; they show that the model gives the values the authors of the code expect of it. -/
namespace Verif.RepoTests
open Verif

/-! ### common/test/test_bbox.cc -/

def cube2 : CubeBox := CubeBox.ofCenter ⟨0, 0, 0⟩ 2
def cube2F : CubeBox := CubeBox.ofCenterF ⟨0, 0, 0⟩ 2

def centers (b : Outcome (List CubeBox)) : Outcome (List Pt) := do
  let bs ← b
  return bs.map (·.center)

/-- test_bbox.cc:41-56 `GenerateSubBoxes`. -/
example : centers cube2.subBoxes = .ok [⟨1/2, 1/2, 1/2⟩, ⟨-1/2, 1/2, 1/2⟩, ⟨-1/2, -1/2, 1/2⟩, ⟨1/2, -1/2, 1/2⟩,
    ⟨1/2, 1/2, -1/2⟩, ⟨-1/2, 1/2, -1/2⟩, ⟨-1/2, -1/2, -1/2⟩, ⟨1/2, -1/2, -1/2⟩] ∧
    centers cube2F.subBoxesF = centers cube2.subBoxes := by decide +kernel

/-- test_bbox.cc:58-69 `ContainsPoint_1`. -/
example : (∀ p ∈ [(⟨1, 1, 1⟩ : Pt), ⟨1, 1, 0⟩, ⟨1, 1, -1⟩, ⟨-1, 1, 1⟩, ⟨0, 0, 0⟩], cube2.contains p = true ∧ cube2F.containsF p = true) ∧
    (∀ p ∈ [(⟨1, 1, toF64 (1001 / 1000)⟩ : Pt), ⟨0, 0, toF64 (-1001 / 1000)⟩, ⟨0, toF64 (10003 / 10000), 0⟩],
      cube2.contains p = false ∧ cube2F.containsF p = false) := by decide +kernel

/-- test_bbox.cc:71-81 `ContainsPoint_2`, on the exact and on the float version of the test. -/
def box2 (p : Pt) : Bool := boxContains ⟨0, 0, 0⟩ ⟨2, 1, 3⟩ ⟨p.x, p.y, p.z, 0, 0⟩
def box2Fl (p : Pt) : Bool := boxHasFl ⟨0, 0, 0⟩ ⟨2, 1, 3⟩ ⟨.num p.x, .num p.y, .num p.z⟩

example : (∀ p ∈ [(⟨1, 1, 1⟩ : Pt), ⟨1, 1, 0⟩, ⟨0, 0, 0⟩], box2 p = true ∧ box2Fl p = true) ∧
    (∀ p ∈ [(⟨1, 1, -1⟩ : Pt), ⟨-1, 1, 1⟩, ⟨2, 1, 3001 / 1000⟩, ⟨0, 0, -1 / 1000⟩], box2 p = false ∧ box2Fl p = false) := by
  decide +kernel

/-- test_bbox.cc:83-91 `GetSubBoxIndexForPoint_1`. -/
example : cube2.subIndex ⟨1/2, 1/2, 1/2⟩ = 0 ∧ cube2.subIndex ⟨-1/2, -1/2, -1/2⟩ = 6 ∧ cube2.subIndex ⟨1003/1000, 1/2, 1/2⟩ = -1 ∧
    cube2F.subIndexF ⟨1/2, 1/2, 1/2⟩ = 0 ∧ cube2F.subIndexF ⟨-1/2, -1/2, -1/2⟩ = 6 ∧
    cube2F.subIndexF ⟨toF64 (1003/1000), 1/2, 1/2⟩ = -1 := by decide +kernel

/-- test_bbox.cc:93-104 `GetSubBoxIndexForPoint_2`: the box is given by its corners. -/
example : (do
    let b ← CubeBox.ofMinMaxF ⟨-1, -1, -1⟩ ⟨1, 1, 1⟩
    return ([b.subIndexF ⟨1/2, 1/2, 1/2⟩, b.subIndexF ⟨0, 0, 0⟩, b.subIndexF ⟨-1/2, -1/2, -1/2⟩,
      b.subIndexF ⟨toF64 (1003/1000), 1/2, 1/2⟩], b.center)) = Outcome.ok ([0, 0, 6, -1], ⟨0, 0, 0⟩) := by decide +kernel

/-! ### common/test/test_octree.cc -/

/-- octree.cc:50 and octree.h `GetMaxDepth`: the greatest depth of a leaf. -/
def depthOf : OctNode → Int
  | .leaf d _ _ => max 0 d
  | .node _ _ a b c d e f g h => [depthOf a, depthOf b, depthOf c, depthOf d, depthOf e, depthOf f, depthOf g, depthOf h].foldl max 0

def testPoints : List Pt := [⟨0, 0, 0⟩, ⟨1, 1, 1⟩, ⟨2, 2, 2⟩, ⟨-1, -1, -1⟩, ⟨3/2, 1, 0⟩, ⟨2, 1, 3⟩, ⟨-1, 3, 1⟩, ⟨5, 4, 2⟩, ⟨2, -5, -4⟩,
  ⟨-4, 2, -2⟩, ⟨1, 7, 1⟩, ⟨3, 1, -2⟩]

def testOctree : OctreeConfig := { center := ⟨0, 0, 0⟩, maxSize := 10, maxDepth := 10, maxNum := 4 }

def depthIs (n : Int) (t : Outcome OctNode) : Bool :=
  match t with
  | .ok t => depthOf t == n
  | _ => false

/-- test_octree.cc:31-57 `InitWithPointCloud`. -/
example : depthIs 2 (octInit testOctree 11 testPoints) = true ∧
    depthIs 2 (octBuildF testOctree 11 0 (CubeBox.ofCenterF ⟨0, 0, 0⟩ 10) testPoints) = true := by decide +kernel

/-! ### common/test/test_simple_time.cc -/

/-- `SimpleTime::FromSec(0.1 * i)`, with the rounding of the product. -/
def tenths : List (Outcome SimpleTime) := (List.range 20).map fun i => SimpleTime.fromSecF (toF64 (toF64 (1 / 10) * ((i : ℚ) + 1)))

/-- The times of the test are these; the sixth is a nanosecond more than six tenths would suggest, if at all. -/
def tenthsNs : List SimpleTime := tenths.filterMap fun o => match o with
  | .ok t => some t
  | _ => none

example : tenthsNs.length = 20 := by decide +kernel

/-- The search with a bound on the number of steps, to be evaluated here. -/
def searchSteps (data : List SimpleTime) (time : SimpleTime) : Nat → Int → Int → Option (Int × Int)
  | 0, _, _ => none
  | n + 1, start, fin =>
    if fin - start > 1 then
      let mid := start + (fin - start) / 2
      match (if 0 ≤ mid then data[mid.toNat]? else none) with
      | none => none
      | some d => if time.lt d then searchSteps data time n start mid else searchSteps data time n mid fin
    else some (start, fin)

theorem searchSteps_eq (data : List SimpleTime) (time : SimpleTime) : ∀ (n : Nat) (start fin : Int) {r},
    searchSteps data time n start fin = some r → tsSearchLoop data time start fin = .ok r
  | n + 1, start, fin, r, h => by
    rw [tsSearchLoop]
    unfold searchSteps at h
    by_cases hc : fin - start > 1
    · rw [if_pos hc] at h
      rw [dif_pos hc]
      dsimp only at h ⊢
      cases hd : (if 0 ≤ start + (fin - start) / 2 then data[(start + (fin - start) / 2).toNat]? else none) with
      | none => rw [hd] at h; cases h
      | some d =>
        rw [hd] at h
        dsimp only at h ⊢
        by_cases hl : time.lt d = true
        · rw [if_pos hl] at h ⊢
          exact searchSteps_eq data time n _ _ h
        · rw [if_neg hl] at h ⊢
          exact searchSteps_eq data time n _ _ h
    · rw [if_neg hc] at h
      rw [dif_neg hc]
      cases h
      rfl

theorem search_eq {data : List SimpleTime} {time : SimpleTime} {i j : Int}
    (h : searchSteps data time 10 0 ((data.length : Int) - 1) = some (i, j)) (hij : j - i = 1) :
    timeStampBinarySearch data time = .ok (i, j) := by
  unfold timeStampBinarySearch
  rw [searchSteps_eq data time 10 _ _ h, Outcome.bind_ok, Outcome.check_pos hij, Outcome.bind_ok]
  rfl

/-- test_simple_time.cc:35-61 `BinarySearch`: 0.25 s, 0.35 s, 0.4 s and 0.5 s are searched for. -/
example : (∃ t, SimpleTime.fromSecF (1 / 4) = .ok t ∧ timeStampBinarySearch tenthsNs t = .ok (1, 2)) ∧
    (∃ t, SimpleTime.fromSecF (toF64 (35 / 100)) = .ok t ∧ timeStampBinarySearch tenthsNs t = .ok (2, 3)) ∧
    (∃ t, SimpleTime.fromSecF (toF64 (4 / 10)) = .ok t ∧ timeStampBinarySearch tenthsNs t = .ok (3, 4)) ∧
    (∃ t, SimpleTime.fromSecF (1 / 2) = .ok t ∧ timeStampBinarySearch tenthsNs t = .ok (4, 5)) :=
  ⟨⟨⟨0, 250000000⟩, by decide +kernel, search_eq (by decide +kernel) (by decide)⟩,
   ⟨⟨0, 350000000⟩, by decide +kernel, search_eq (by decide +kernel) (by decide)⟩,
   ⟨⟨0, 400000000⟩, by decide +kernel, search_eq (by decide +kernel) (by decide)⟩,
   ⟨⟨0, 500000000⟩, by decide +kernel, search_eq (by decide +kernel) (by decide)⟩⟩

/-! ### pre_processors/test -/

/-- The largest `float`. -/
def fltMax : ℚ := 2 ^ 128 - 2 ^ 104

/-- What `InitFromXmlText` returns. -/
def accepts (f : FilterConfig) (x : XmlFilter) : Outcome Bool := do
  let r ← f.init x
  return r.1

/-- A `float` parameter (type 1) or an integer one (type 0). -/
def fp (n : String) (v : ℚ) : XmlParam := ⟨some 1, n, truncInt v, v⟩
def ip (n : String) (v : Int) : XmlParam := ⟨some 0, n, v, v⟩

/-- test_filter_axis_range.cc:36-59 `FilterConfig`. -/
example : accepts (axisRangeConfig fltMax) { name := "AxisRangeXXX", params := [] } = .ok false ∧
    accepts (axisRangeConfig fltMax) { name := "AxisRange", params := [fp "min" 90, fp "max" 80] } = .ok false ∧
    accepts (axisRangeConfig fltMax) { name := "AxisRange", params := [fp "min" 10, fp "max" 80, ip "axis_index" (-1)] } = .ok false ∧
    accepts (axisRangeConfig fltMax) { name := "AxisRange", params := [fp "min" 50] } = .ok true ∧
    accepts (axisRangeConfig fltMax) { name := "AxisRange", params := [fp "min" 60, fp "max" 80, ip "axis_index" 1] } = .ok true := by
  decide +kernel

/-- test_filter_bounding_box.cc:37-64 `FilterConfig`. -/
example : accepts (boxRemovalConfig fltMax) { name := "BoundingBoxRemoval", params := [fp "min_x" 90, fp "max_x" 80] } = .ok false ∧
    accepts (boxRemovalConfig fltMax) { name := "BoundingBoxRemoval", params := [fp "min_x" 10, fp "max_x" 80, fp "min_y" 10, fp "max_y" 0] } = .ok false ∧
    accepts (boxRemovalConfig fltMax) { name := "BoundingBoxRemoval", params := [fp "min_z" 90, fp "max_z" 80] } = .ok false ∧
    accepts (boxRemovalConfig fltMax) { name := "BoundingBoxRemoval", params := [fp "min_x" 0, fp "max_x" 100, fp "min_y" 0, fp "max_y" 100, fp "min_z" 0, fp "max_z" 100] } = .ok true := by
  decide +kernel

/-- test_filter_random_sample.cc:36-61 `FilterConfig`. -/
example : accepts randomSamplerConfig { name := "RandomSampler", params := [] } = .ok true ∧
    accepts randomSamplerConfig { name := "RandomSamplerSSS", params := [] } = .ok false ∧
    accepts randomSamplerConfig { name := "RandomSampler", params := [fp "sampling_rate" (1 / 2)] } = .ok true ∧
    accepts randomSamplerConfig { name := "RandomSampler", params := [fp "sampling_rate" (3 / 2)] } = .ok false := by
  decide +kernel

/-- test_filter_voxel_grid.cc:34-50 `FilterConfig`; test_filter_range.cc:60-65. -/
example : accepts voxelGridConfig { name := "VoxelGrid", params := [fp "voxel_size" 0] } = .ok false ∧
    accepts voxelGridConfig { name := "VoxelGrid", params := [fp "voxel_size" 10] } = .ok true ∧
    accepts (rangeConfig fltMax) { name := "Range", params := [fp "min_range" 20, fp "max_range" 80] } = .ok true := by
  decide +kernel

/-- test_filter_voxel_grid.cc:52-62: a hundred points, `x * 0.1f + 0.02f` with the rounding of `float`. -/
def gridCoord (i : Nat) : ℚ := toF32 (toF32 ((i : ℚ) * toF32 (1 / 10)) + toF32 (2 / 100))

def gridPoints : List (InnerPoint ℚ) :=
  (List.range 10).flatMap fun x => (List.range 10).map fun y => ⟨gridCoord x, gridCoord y, toF32 (1 / 10), 0, 0⟩

/-- The filter on these points: number of points and stamp of the result. -/
def gridResult (size : ℚ) : Option (Nat × RawTime) :=
  match voxelGridFilterF (toF32 size) ⟨id, fun _ => List.Perm.refl _⟩ (({} : FState Rat).setInput (some ⟨⟨7, 8, 1⟩, gridPoints⟩)) freshCloud with
  | .ok r => some (r.2.points.length, r.2.stamp)
  | _ => none

/-- test_filter_voxel_grid.cc:66-100 `Filter`: 100 points with voxels of 0.1 m, 36 with 0.2 m, 9 with 0.4 m. -/
example : gridResult (1 / 10) = some (100, ⟨7, 8, 1⟩) := by decide +kernel
example : gridResult (2 / 10) = some (36, ⟨7, 8, 1⟩) := by decide +kernel
example : gridResult (4 / 10) = some (9, ⟨7, 8, 1⟩) := by decide +kernel

/-! ### builder/data/test/test_cloud_types.cc -/

/-- test_cloud_types.cc:171-195 `TransformPointAndCloud`: the point is left alone by the identity and turned by
half a turn about the z axis (`sin(M_PI)` is 1.2e-16 in double). -/
example : ∀ fma : Bool, transformPointF fma 1 ⟨10, 0, 30, 0, 1⟩ = ⟨10, 0, 30, 0, 1⟩ := by decide +kernel

example : ∀ fma : Bool, (fun q : InnerPoint ℚ => decide (|q.x + 10| ≤ 1 / 10 ^ 6 ∧ |q.y| ≤ 1 / 10 ^ 6 ∧ |q.z - 30| ≤ 1 / 10 ^ 6 ∧
      q.intensity = 0 ∧ q.factor = 1))
    (transformPointF fma !![-1, -(12246 / 10 ^ 20), 0, 0; 12246 / 10 ^ 20, -1, 0, 0; 0, 0, 1, 0; 0, 0, 0, 1] ⟨10, 0, 30, 0, 1⟩) = true := by
  decide +kernel

end Verif.RepoTests
