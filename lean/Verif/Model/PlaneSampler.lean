import Verif.Model.Filters
import Verif.Model.Floats
import Verif.Model.Outcome
import Mathlib.Data.List.Sort
/-
pre_processors/plane_detector.h and pre_processors/random_sample_with_plane_detect.h: a sampler that keeps
every point on a plane and a share of the others.  Its one use (builder/submap.cc:136) is commented out.

Numbers are `float`s, given as rationals; every rounding of the code is made.  Infinite and not-a-number
coordinates and `int` counters beyond 2^31 are not modelled.  PCL's plane segmentation is a parameter: the
positions of the inliers in the cloud it is given.
-/
namespace Verif

/-- The key of a voxel (plane_detector.h:96-98). -/
abbrev PlaneKey := Int × Int × Int

/-- plane_detector.h:160-165 `VectorCompare`. -/
def planeKeyLt (a b : PlaneKey) : Bool :=
  decide (a.1 < b.1 ∨ (a.1 = b.1 ∧ (a.2.1 < b.2.1 ∨ (a.2.1 = b.2.1 ∧ a.2.2 < b.2.2))))

/-- plane_detector.h:158-171, the members (`min_z_` and `max_z_` of the whole cloud are never read). -/
structure PlaneDetector where
  cloud : Option (List (Vec3 Rat))
  voxels : List (PlaneKey × List Nat)
  minPoints : Nat
  leaf : Rat

/-- plane_detector.h:49-53. -/
def PlaneDetector.new : PlaneDetector := ⟨none, [], 10, 1 / 2⟩

/-- plane_detector.h:56-65 `SetMinPointNumInVoxel`. -/
def PlaneDetector.setMin (d : PlaneDetector) (n : Nat) : PlaneDetector :=
  if n < 5 then { d with minPoints := 5 } else { d with minPoints := n }

/-- plane_detector.h:67 `SetLeafSize`. -/
def PlaneDetector.setLeaf (d : PlaneDetector) (leaf : Rat) : PlaneDetector := { d with leaf := leaf }

/-- plane_detector.h:79-81, one coordinate: a value outside `int`, or a division by zero, is undefined. -/
def planeIndex (leaf v : Rat) : Outcome Int :=
  if leaf = 0 then .ub
  else
    let k := truncInt (toF32 (v / leaf))
    if -2147483648 ≤ k ∧ k ≤ 2147483647 then .ok k else .ub

/-- plane_detector.h:82 : `voxels_[index].push_back(i)` on the ordered map. -/
def planePush (k : PlaneKey) (i : Nat) : List (PlaneKey × List Nat) → List (PlaneKey × List Nat)
  | [] => [(k, [i])]
  | e :: r =>
    if planeKeyLt k e.1 then (k, [i]) :: e :: r
    else if k = e.1 then (e.1, e.2 ++ [i]) :: r
    else e :: planePush k i r

/-- plane_detector.h:77-89, the loop. -/
def planeInsert (leaf : Rat) : Nat → List (Vec3 Rat) → List (PlaneKey × List Nat) →
    Outcome (List (PlaneKey × List Nat))
  | _, [], m => .ok m
  | i, p :: ps, m => do
    let x ← planeIndex leaf p.x
    let y ← planeIndex leaf p.y
    let z ← planeIndex leaf p.z
    planeInsert leaf (i + 1) ps (planePush (x, y, z) i m)

/-- plane_detector.h:69-90 `SetInputCloud` (`none`: null pointer).  The voxels of earlier clouds stay. -/
def PlaneDetector.setInput (d : PlaneDetector) (c : Option (List (Vec3 Rat))) : Outcome PlaneDetector :=
  match c with
  | none => return { d with cloud := none }
  | some [] => return { d with cloud := none }
  | some (p :: ps) => do
    let m ← planeInsert d.leaf 0 (p :: ps) d.voxels
    return { d with cloud := some (p :: ps), voxels := m }

/-- `points[i]`: undefined outside the cloud. -/
def planePoint (c : List (Vec3 Rat)) (i : Nat) : Outcome (Vec3 Rat) :=
  match c[i]? with
  | some p => .ok p
  | none => .ub

/-- The points of a voxel, one read after the other. -/
def planePoints (c : List (Vec3 Rat)) : List Nat → Outcome (List (Vec3 Rat))
  | [] => .ok []
  | i :: is => do
    let p ← planePoint c i
    let ps ← planePoints c is
    return p :: ps

/-- plane_detector.h:110-120 : highest and lowest `z`, from ∓10⁹. -/
def planeZRange : Rat → Rat → List (Vec3 Rat) → Rat × Rat
  | hi, lo, [] => (hi, lo)
  | hi, lo, p :: ps => planeZRange (if hi < p.z then p.z else hi) (if p.z < lo then p.z else lo) ps

/-- `indices[index]` for each inlier (plane_detector.h:147-149): undefined outside the voxel. -/
def planePick (indices : List Nat) : List Nat → Outcome (List Nat)
  | [] => .ok []
  | j :: js =>
    match indices[j]? with
    | none => .ub
    | some i => do
      let r ← planePick indices js
      return i :: r

/-- plane_detector.h:104-151 : what one voxel adds.  `seg` is PCL's segmentation. -/
def planeVoxel (seg : List (Vec3 Rat) → List Nat) (c : List (Vec3 Rat)) (minPoints : Nat) (thr : Rat)
    (e : PlaneKey × List Nat) : Outcome (List Nat) :=
  if e.2.length < minPoints then .ok []
  else if e.1.2.2 ≤ 0 then do
    let ps ← planePoints c e.2
    let r := planeZRange (-1000000000) 1000000000 ps
    let delta := toF32 (r.1 - r.2)
    if 0 ≤ delta ∧ delta ≤ thr then return e.2 else return []
  else if e.2.length < minPoints * 2 then .ok []
  else do
    let ps ← planePoints c e.2
    let inliers := seg ps
    let rate := toF32 (toF32 inliers.length / toF32 e.2.length)
    if toF64 (85 / 100) < rate then planePick e.2 inliers else return []

/-- plane_detector.h:103-152, all voxels in order. -/
def planeVoxels (seg : List (Vec3 Rat) → List Nat) (c : List (Vec3 Rat)) (minPoints : Nat) (thr : Rat) :
    List (PlaneKey × List Nat) → Outcome (List Nat)
  | [] => .ok []
  | e :: r => do
    let a ← planeVoxel seg c minPoints thr e
    let b ← planeVoxels seg c minPoints thr r
    return a ++ b

/-- plane_detector.h:92-153 `Detect`: the indices it appends. -/
def PlaneDetector.detect (seg : List (Vec3 Rat) → List Nat) (d : PlaneDetector) (thr : Rat) :
    Outcome (List Nat) :=
  match d.cloud with
  | none => .ok []
  | some c =>
    if d.voxels.isEmpty then .ok []
    else if d.leaf ≤ thr then .ok []
    else planeVoxels seg c d.minPoints thr d.voxels

/-- random_sample_with_plane_detect.h:109-113, the members. -/
structure PlaneSampler where
  rate : Rat
  height : Rat
  det : PlaneDetector
  cloud : Option (List (Vec3 Rat))

/-- random_sample_with_plane_detect.h:43-46. -/
def PlaneSampler.new : PlaneSampler :=
  ⟨1, toF32 (1 / 5), (PlaneDetector.new.setMin 10).setLeaf (toF32 (4 / 5)), none⟩

/-- random_sample_with_plane_detect.h:50-59 `SetSamplingRate`. -/
def PlaneSampler.setRate (s : PlaneSampler) (rate : Rat) : PlaneSampler :=
  if 1 < rate then { s with rate := 1 }
  else if rate < toF64 (1 / 1000000) then { s with rate := toF32 (1 / 1000000) }
  else { s with rate := rate }

/-- random_sample_with_plane_detect.h:61 `SetLeafSize`. -/
def PlaneSampler.setLeaf (s : PlaneSampler) (leaf : Rat) : PlaneSampler :=
  { s with det := s.det.setLeaf leaf }

/-- random_sample_with_plane_detect.h:63-65 `SetMinPointNumInVoxel`. -/
def PlaneSampler.setMin (s : PlaneSampler) (n : Nat) : PlaneSampler := { s with det := s.det.setMin n }

/-- random_sample_with_plane_detect.h:67-74 `SetInputCloud`. -/
def PlaneSampler.setInput (s : PlaneSampler) (c : Option (List (Vec3 Rat))) : PlaneSampler :=
  match c with
  | none => { s with cloud := none }
  | some [] => { s with cloud := none }
  | some (p :: ps) => { s with cloud := some (p :: ps) }

/-- random_sample_with_plane_detect.h:91-106 : the loop from point `i` on.  `front()` of an empty vector is
undefined. -/
def planeLoop (rate : Rat) : Nat → List (Vec3 Rat) → List Nat → Nat → Nat → Outcome (List (Vec3 Rat))
  | _, [], _, _, _ => .ok []
  | _, _ :: _, [], _, _ => .ub
  | i, p :: ps, f :: fs, others, sampled =>
    if i = f then do
      let r ← planeLoop rate (i + 1) ps fs others sampled
      return p :: r
    else if toF32 (toF32 sampled / toF32 (others + 1 : Nat)) < rate then do
      let r ← planeLoop rate (i + 1) ps (f :: fs) (others + 1) (sampled + 1)
      return p :: r
    else planeLoop rate (i + 1) ps (f :: fs) (others + 1) sampled

/-- random_sample_with_plane_detect.h:76-107 `Filter`: the sampler and the output cloud afterwards. -/
def PlaneSampler.filter (seg : List (Vec3 Rat) → List Nat) (s : PlaneSampler) (out : List (Vec3 Rat)) :
    Outcome (PlaneSampler × List (Vec3 Rat)) :=
  match s.cloud with
  | none => .ok (s, out)
  | some [] => .ok (s, out)
  | some (p :: ps) =>
    if toF64 (999999 / 1000000) < s.rate then .ok (s, p :: ps)
    else do
      let d ← s.det.setInput (some (p :: ps))
      let planes ← d.detect seg s.height
      let r ← planeLoop s.rate 0 (p :: ps) (planes.insertionSort (· ≤ ·)) 0 0
      return ({ s with det := d }, r)

end Verif
