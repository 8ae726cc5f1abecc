import Verif.Proofs.VoxelCasting
/-! Property theorems C05, C06 (voxel casting). -/
namespace Verif
open Spec

/-- C05: Bresenham casting between any two voxels returns normally (none of the final checks
fires) and its result is a ray in the sense of `Spec.IsRay`: right ends, right length, unit
steps towards the end (always on a longest axis), inside the bounding box and within half a
voxel of the straight line. -/
theorem C05_bresenham_ray (v0 v1 : Voxel) :
    ∃ path, bresenham v0 v1 = .ok path ∧ IsRay v0 v1 path := bresenham_isRay v0 v1

/-- C05/C06 for points: both casters join the voxels containing the two points (half-open
voxels `[i*step, (i+1)*step)` on every axis). -/
theorem C05_C06_casting_points (p q : Vec3 Rat) (step : Rat) (hs : 0 < step) :
    ∃ path path' a b, voxelCastingBresenham p q step = .ok path ∧ IsRay a b path ∧
      voxelCastingDDA p q step = .ok path' ∧ IsRay a b path' ∧
      (a.x * step ≤ p.x ∧ p.x < (a.x + 1) * step) ∧ (b.x * step ≤ q.x ∧ q.x < (b.x + 1) * step) ∧
      (a.y * step ≤ p.y ∧ p.y < (a.y + 1) * step) ∧ (b.y * step ≤ q.y ∧ q.y < (b.y + 1) * step) ∧
      (a.z * step ≤ p.z ∧ p.z < (a.z + 1) * step) ∧ (b.z * step ≤ q.z ∧ q.z < (b.z + 1) * step) := by
  obtain ⟨path, h1, h2⟩ := bresenham_isRay (voxelOf p step) (voxelOf q step)
  obtain ⟨path', h1', h2'⟩ := dda_isRay (voxelOf p step) (voxelOf q step)
  exact ⟨path, path', _, _, h1, h2, h1', h2', voxel_bounds hs _, voxel_bounds hs _,
    voxel_bounds hs _, voxel_bounds hs _, voxel_bounds hs _, voxel_bounds hs _⟩

/-- C06: the DDA caster has the same guarantees. -/
theorem C06_dda_ray (v0 v1 : Voxel) :
    ∃ path, dda v0 v1 = .ok path ∧ IsRay v0 v1 path := dda_isRay v0 v1

-- concrete runs
example : bresenham ⟨0,0,0⟩ ⟨3,-1,2⟩ = .ok [⟨0,0,0⟩, ⟨1,0,1⟩, ⟨2,-1,1⟩, ⟨3,-1,2⟩] := by decide
example : dda ⟨0,0,0⟩ ⟨3,-1,2⟩ = .ok [⟨0,0,0⟩, ⟨1,0,1⟩, ⟨2,-1,1⟩, ⟨3,-1,2⟩] := by decide
example : bresenham ⟨0,0,0⟩ ⟨2,1,0⟩ ≠ dda ⟨0,0,0⟩ ⟨2,-1,0⟩ := by decide
example : (0 : Rat) < 1/2 := by norm_num

end Verif
